import Verif.Spec.Alloc
import Verif.Lemmas.Memory
import Verif.Lemmas.Construct
import Verif.Props.Histories

/-!
# Property C73: what operations do with storage
-/

namespace Householder.Props

open Spec

variable {α : Type}

/-! ### Writing inside a window -/

/-- The cell `q` is in the window of the container. -/
def Holds (d : Container) (q : Loc) : Prop :=
  q.buf = d.buf ∧ d.off ≤ q.idx ∧ q.idx < d.off + d.len

/-- Memory changes in the window of the container at most. -/
structure Only (d : Container) (mem mem' : Mem α) : Prop where
  nbufs : mem'.bufs.length = mem.bufs.length
  size : ∀ b, mem'.size b = mem.size b
  other : ∀ q, ¬ Holds d q → mem'.get? q = mem.get? q

theorem Only.refl (d : Container) (mem : Mem α) : Only d mem mem :=
  ⟨rfl, fun _ => rfl, fun _ _ => rfl⟩

theorem Only.trans {d : Container} {mem mem' mem'' : Mem α} (h : Only d mem mem')
    (h' : Only d mem' mem'') : Only d mem mem'' :=
  ⟨h'.nbufs.trans h.nbufs, fun b => (h'.size b).trans (h.size b),
    fun q hq => (h'.other q hq).trans (h.other q hq)⟩

theorem Only.write {d : Container} {mem mem' : Mem α} {p : Loc} {v : α} (hp : Holds d p)
    (h : mem.write p v = .ok mem') : Only d mem mem' := by
  have u := Mem.write_ok_upd h
  refine ⟨u.nbufs, u.size, fun q hq => ?_⟩
  rw [u.get, if_neg]
  rintro rfl
  exact hq hp

theorem forRange_rel {σ : Type} {R : σ → σ → Prop} (hr : ∀ s, R s s)
    (ht : ∀ {a b c}, R a b → R b c → R a c) {n : Nat} {body : Nat → σ → Out σ}
    (hb : ∀ i s s', body i s = .ok s' → R s s') {s s' : σ} (h : forRange n body s = .ok s') :
    R s s' := by
  unfold forRange at h
  generalize List.range n = xs at h
  induction xs generalizing s with
  | nil => cases h; exact hr _
  | cons i xs ih =>
    rw [List.foldlM_cons, Out.bind_eq_ok] at h
    obtain ⟨s1, h1, h2⟩ := h
    exact ht (hb i s s1 h1) (ih h2)

theorem get_unchecked_mut_holds {d : Container} {k : Nat} {p : Loc}
    (h : d.get_unchecked_mut k = .ok p) : Holds d p := by
  unfold Container.get_unchecked_mut at h
  split at h
  · cases h; exact ⟨rfl, by simp, by simpa⟩
  · cases h

theorem get_mut_holds [Target] {cfg : Cfg} {m : BaseMatrix} {r c : Nat} {p : Loc}
    (h : m.get_mut cfg r c = .ok p) : Holds m.data p := by
  simp only [BaseMatrix.get_mut, BaseMatrix.get_unchecked_mut, Out.bind_eq_ok] at h
  obtain ⟨_, _, _, _, h⟩ := h
  exact get_unchecked_mut_holds h

theorem get1d_unchecked_mut_holds [Target] {cfg : Cfg} {m : BaseMatrix} {k : Nat} {p : Loc}
    (h : m.get1d_unchecked_mut cfg k = .ok p) : Holds m.data p := by
  simp only [BaseMatrix.get1d_unchecked_mut, Out.bind_eq_ok] at h
  obtain ⟨_, _, h⟩ := h
  exact get_unchecked_mut_holds h

theorem get1d_mut_holds [Target] {cfg : Cfg} {m : BaseMatrix} {k : Nat} {p : Loc}
    (h : m.get1d_mut cfg k = .ok p) : Holds m.data p := by
  simp only [BaseMatrix.get1d_mut, Out.bind_eq_ok] at h
  obtain ⟨_, _, _, _, h⟩ := h
  exact get1d_unchecked_mut_holds h

theorem exec_only [Target] {cfg : Cfg} {m : BaseMatrix} {mem : Mem α} {op : ArrOp α} {x : Resp α × Mem α}
    (h : exec cfg m mem op = .ok x) : Only m.data mem x.2 := by
  cases op with
  | get r c | get1d k =>
    simp only [exec, Out.bind_eq_ok, Out.pure_eq] at h
    obtain ⟨_, _, h⟩ := h
    cases h; exact .refl _ _
  | set r c v =>
    simp only [exec, BaseMatrix.set, Out.bind_eq_ok, Out.pure_eq] at h
    obtain ⟨_, ⟨p, hp, hw⟩, h⟩ := h
    cases h; exact .write (get_mut_holds hp) hw
  | set1d k v =>
    simp only [exec, BaseMatrix.set1d, Out.bind_eq_ok, Out.pure_eq] at h
    obtain ⟨_, ⟨p, hp, hw⟩, h⟩ := h
    cases h; exact .write (get1d_mut_holds hp) hw
  | update r c f =>
    simp only [exec, Out.bind_eq_ok, Out.pure_eq] at h
    obtain ⟨p, hp, _, _, _, hw, h⟩ := h
    cases h; exact .write (get_mut_holds hp) hw
  | update1d k f =>
    simp only [exec, Out.bind_eq_ok, Out.pure_eq] at h
    obtain ⟨p, hp, _, _, _, hw, h⟩ := h
    cases h; exact .write (get1d_mut_holds hp) hw

theorem exec_read [Target] {cfg : Cfg} {m : BaseMatrix} {mem : Mem α} {x : Resp α × Mem α} {op : ArrOp α}
    (hop : (∃ r c, op = .get r c) ∨ ∃ k, op = .get1d k)
    (h : exec cfg m mem op = .ok x) : x.2 = mem := by
  rcases hop with ⟨r, c, rfl⟩ | ⟨k, rfl⟩ <;>
  · simp only [exec, Out.bind_eq_ok, Out.pure_eq] at h
    obtain ⟨_, _, h⟩ := h
    cases h; rfl

theorem for_each_only [Target] {σ : Type} {cfg : Cfg} {m : BaseMatrix} {f : σ → α → σ × α} {s : σ}
    {mem : Mem α} {x : σ × Mem α} (h : m.for_each cfg f s mem = .ok x) : Only m.data mem x.2 := by
  simp only [BaseMatrix.for_each, Out.bind_eq_ok, Out.pure_eq] at h
  obtain ⟨n, _, h⟩ := h
  refine forRange_rel (R := fun a b : σ × Mem α => Only m.data a.2 b.2) (fun _ => .refl _ _)
    Only.trans (fun i a b hb => ?_) h
  simp only [Out.bind_eq_ok] at hb
  obtain ⟨p, hp, _, _, _, hw, hb⟩ := hb
  cases hb
  exact .write (get1d_unchecked_mut_holds hp) hw

theorem get_slice_mut_window {d w : Container} {first last : Nat}
    (h : d.get_slice_mut first last = .ok w) :
    w.buf = d.buf ∧ d.off ≤ w.off ∧ w.off + w.len ≤ d.off + d.len := by
  simp only [Container.get_slice_mut, Out.bind_eq_ok, Out.assert_eq_ok] at h
  obtain ⟨_, h1, _, h2, _, h3, p, hp, h⟩ := h
  have e1 : p = ⟨d, 0 + first⟩ := by
    unfold Ptr.add at hp
    split at hp
    · cases hp; rfl
    · cases hp
  subst e1
  unfold Ptr.from_raw_parts at h
  split at h
  · rename_i hle
    cases h
    simp only at hle
    exact ⟨rfl, by simp, by simp only; omega⟩
  · cases h

theorem writeList_only {d w : Container} {mem mem' : Mem α} {xs : List α}
    (hw : w.buf = d.buf ∧ d.off ≤ w.off ∧ w.off + w.len ≤ d.off + d.len)
    (h : w.writeList mem xs = .ok mem') : Only d mem mem' := by
  unfold Container.writeList at h
  split at h
  · refine forRange_rel (R := fun a b : Mem α => Only d a b) (fun _ => .refl _ _) Only.trans
      (fun i a b hb => ?_) h
    cases hx : xs[i]? with
    | none => simp [hx] at hb
    | some v =>
      simp only [hx, Out.bind_eq_ok] at hb
      obtain ⟨p, hp, hb⟩ := hb
      have := get_unchecked_mut_holds hp
      refine .write ?_ hb
      unfold Holds at *
      omega
  · cases h

theorem gemm_only {kern : Kern α} {m k n : Nat} {alpha beta : α} {a b c : Ptr}
    {rsa csa rsb csb rsc csc : Int} {mem mem' : Mem α}
    (h : gemm kern m k n alpha a rsa csa b rsb csb beta c rsc csc mem = .ok mem') :
    Only c.prov mem mem' := by
  unfold gemm at h
  split at h
  · rename_i hp
    have key : ∀ i j, i < m → j < n → Holds c.prov (gemmLoc c rsc csc i j) := by
      intro i j hi hj
      obtain ⟨h1, h2⟩ := hp.2.2.1 i hi j hj
      refine ⟨rfl, ?_, ?_⟩ <;> simp only [gemmLoc] <;> omega
    have aux : ∀ {σ : Type} {R : σ → σ → Prop} (_ : ∀ s, R s s)
        (_ : ∀ {a b c}, R a b → R b c → R a c) {n : Nat} {body : Nat → σ → Out σ}
        (_ : ∀ i s s', i < n → body i s = .ok s' → R s s') {s s' : σ}
        (_ : forRange n body s = .ok s'), R s s' := by
      intro σ R hr ht n body hb s s' h
      unfold forRange at h
      have hmem : ∀ i ∈ List.range n, i < n := fun i => List.mem_range.1
      generalize List.range n = xs at h hmem
      induction xs generalizing s with
      | nil => cases h; exact hr _
      | cons i xs ih =>
        rw [List.foldlM_cons, Out.bind_eq_ok] at h
        obtain ⟨s1, h1, h2⟩ := h
        exact ht (hb i s s1 (hmem i (by simp)) h1) (ih h2 fun j hj => hmem j (by simp [hj]))
    refine aux (R := fun x y : Mem α => Only c.prov x y) (fun _ => .refl _ _) Only.trans
      (fun i x y hi hb => ?_) h
    refine aux (R := fun x y : Mem α => Only c.prov x y) (fun _ => .refl _ _) Only.trans
      (fun j x y hj hb => ?_) hb
    simp only [Out.bind_eq_ok] at hb
    obtain ⟨_, _, _, _, hb⟩ := hb
    exact .write (key i j hi hj) hb
  · cases h

theorem matmul_only [Target] {kern : Kern α} {alpha beta : α} {a b c : BaseMatrix} {mem mem' : Mem α}
    (h : matmul kern alpha a b beta c mem = .ok mem') : Only c.data mem mem' := by
  simp only [matmul, Out.bind_eq_ok] at h
  obtain ⟨_, _, _, _, _, _, _, _, _, _, _, _, _, _, h⟩ := h
  exact gemm_only h

/-! ### New matrices -/

/-- The result of a constructor: a matrix that has all of a new allocation to itself; the old
allocations are as they were. -/
def Brings (mem : Mem α) (x : BaseMatrix × Mem α) : Prop :=
  ∃ ys, x.2.bufs = mem.bufs ++ [ys] ∧ x.1.data = ⟨mem.bufs.length, 0, ys.length⟩

theorem newVector_brings [Target] [Zero α] {cfg : Cfg} {mem : Mem α} {n : Nat} {d : Container × Mem α}
    (h : Container.newVector cfg mem n = .ok d) :
    ∃ ys, d.2.bufs = mem.bufs ++ [ys] ∧ d.1 = ⟨mem.bufs.length, 0, ys.length⟩ := by
  unfold Container.newVector at h
  split at h
  · cases h; exact ⟨List.replicate n 0, rfl, by simp [Mem.alloc]⟩
  · cases h

theorem newSlice_brings [Target] {cfg : Cfg} {mem : Mem α} {xs : List α} {d : Container × Mem α}
    (h : Container.newSlice cfg mem xs = .ok d) :
    ∃ ys, d.2.bufs = mem.bufs ++ [ys] ∧ d.1 = ⟨mem.bufs.length, 0, ys.length⟩ := by
  unfold Container.newSlice at h
  split at h
  · cases h; exact ⟨xs, rfl, by simp [Mem.alloc]⟩
  · cases h

theorem newArray_brings [Zero α] (mem : Mem α) (n : Nat) :
    ∃ ys, (Container.newArray mem n).2.bufs = mem.bufs ++ [ys] ∧
      (Container.newArray mem n).1 = ⟨mem.bufs.length, 0, ys.length⟩ :=
  ⟨List.replicate n 0, rfl, by simp [Container.newArray, Mem.alloc]⟩

theorem from_data_data [Target] {cfg : Cfg} {rs cs : SizeId} {d : Container} {l : Layout} {m : BaseMatrix}
    (h : from_data cfg rs cs d l = .ok m) : m.data = d := by
  simp only [from_data, BaseMatrix.new, Out.bind_eq_ok, Out.pure_eq] at h
  obtain ⟨_, _, _, _, h⟩ := h
  cases h; rfl

theorem zeros_brings [Target] [Zero α] {cfg : Cfg} {k : BaseKind} {r c : Nat} {mem : Mem α}
    {x : BaseMatrix × Mem α} (h : zeros_from_dim cfg k r c mem = .ok x) : Brings mem x := by
  simp only [zeros_from_dim, Out.bind_eq_ok, Out.pure_eq] at h
  obtain ⟨_, _, _, _, d, hd, _, _, m, hm, h⟩ := h
  cases h
  obtain ⟨ys, h1, h2⟩ := newVector_brings hd
  exact ⟨ys, h1, (from_data_data hm).trans h2⟩

theorem rowDim_brings [Target] [Zero α] {cfg : Cfg} {r c : Nat} {mem : Mem α} {x : BaseMatrix × Mem α}
    (h : RowVectorD.zeros_from_dim cfg r c mem = .ok x) : Brings mem x := by
  simp only [RowVectorD.zeros_from_dim, Out.bind_eq_ok, Out.pure_eq] at h
  obtain ⟨_, _, d, hd, m, hm, h⟩ := h
  cases h
  obtain ⟨ys, h1, h2⟩ := newVector_brings hd
  exact ⟨ys, h1, (from_data_data hm).trans h2⟩

theorem colDim_brings [Target] [Zero α] {cfg : Cfg} {r c : Nat} {mem : Mem α} {x : BaseMatrix × Mem α}
    (h : ColumnVectorD.zeros_from_dim cfg r c mem = .ok x) : Brings mem x := by
  simp only [ColumnVectorD.zeros_from_dim, Out.bind_eq_ok, Out.pure_eq] at h
  obtain ⟨_, _, d, hd, m, hm, h⟩ := h
  cases h
  obtain ⟨ys, h1, h2⟩ := newVector_brings hd
  exact ⟨ys, h1, (from_data_data hm).trans h2⟩

/-- Writing in the new matrix. -/
theorem Brings.only {mem mem' : Mem α} {x : BaseMatrix × Mem α} (h : Brings mem x)
    (ho : Only x.1.data x.2 mem') : Brings mem (x.1, mem') := by
  obtain ⟨ys, h1, h2⟩ := h
  have hn : mem'.bufs.length = mem.bufs.length + 1 := by rw [ho.nbufs, h1]; simp
  have hlt : mem.bufs.length < mem'.bufs.length := by omega
  refine ⟨mem'.bufs[mem.bufs.length], ?_, ?_⟩
  · refine List.ext_getElem (by simp [hn]) fun b hb1 hb2 => ?_
    by_cases hb : b < mem.bufs.length
    · rw [List.getElem_append_left hb]
      refine List.ext_getElem? fun i => ?_
      have := ho.other ⟨b, i⟩ (by rw [h2]; rintro ⟨rfl, -⟩; simp at hb)
      simpa [Mem.get?, h1, hb1, hb, List.getElem?_append_left hb] using this
    · have : b = mem.bufs.length := by simp only [List.length_append, List.length_singleton] at hb2; omega
      subst this
      simp
  · have := ho.size mem.bufs.length
    simp only [h2]
    congr 1
    simpa [Mem.size, hlt, h1] using this.symm

theorem eval_brings [Target] [Zero α] [Add α] [Mul α] {cfg : Cfg} {m : Mat α} {mem : Mem α}
    {x : BaseMatrix × Mem α} (h : m.eval cfg mem = .ok x) : Brings mem x := by
  simp only [Mat.eval, Out.bind_eq_ok, Out.pure_eq] at h
  obtain ⟨y, hy, _, _, mem', hf, h⟩ := h
  cases h
  refine (zeros_brings hy).only ?_
  refine forRange_rel (R := fun a b : Mem α => Only y.1.data a b) (fun _ => .refl _ _) Only.trans
    (fun i a b hb => ?_) hf
  simp only [Out.bind_eq_ok] at hb
  obtain ⟨_, _, p, hp, hb⟩ := hb
  exact .write (get1d_unchecked_mut_holds hp) hb

theorem dot_brings [Target] [Zero α] [One α] {cfg : Cfg} {kern : Kern α} {i : DotImpl} {a b : BaseMatrix}
    {mem : Mem α} {x : BaseMatrix × Mem α} (h : dot cfg kern i a b mem = .ok x) : Brings mem x := by
  cases i <;>
  · simp only [dot, dot_mm, dot_vm, dot_mv, Out.bind_eq_ok, Out.pure_eq] at h
    obtain ⟨y, hy, mem', hm, h⟩ := h
    cases h
    first
    | exact (zeros_brings hy).only (matmul_only hm)
    | exact (rowDim_brings hy).only (matmul_only hm)
    | exact (colDim_brings hy).only (matmul_only hm)

/-! ### Programs -/

section

variable [Zero α] [One α] [Add α] [Mul α]

/-- **C73**, one operation: the values of the program stay as they are and the new ones are added
after them, as many as the operation makes; an operation that owns its result makes one allocation,
which the result has to itself, and the others make none; what was in memory stays, except in the
window of the matrix that the operation is documented to write to. A panic changes nothing. -/
theorem C73_operation [Target] (cfg : Cfg) (kern : Kern α) (s s' : St α) (op : Op α) (o : Obs α)
    (h : op.step cfg kern s = some (o, s')) :
    (∃ new, s'.mats = s.mats ++ new ∧ new.length = op.created o) ∧
    s'.mem.bufs.length = s.mem.bufs.length + op.allocations o ∧
    (op.allocations o = 1 → ∃ b, s'.mats = s.mats ++ [.base b] ∧
      b.data = ⟨s.mem.bufs.length, 0, s'.mem.size s.mem.bufs.length⟩) ∧
    (∀ b, b < s.mem.bufs.length → s'.mem.size b = s.mem.size b) ∧
    (∀ q, q.buf < s.mem.bufs.length → (∀ h b, op.writesTo = some h → s.base? h = some b →
      ¬ inWindow q b) → s'.mem.get? q = s.mem.get? q) := by
  have stay : ∀ {ms : List (Mat α)}, op.owns = false → ms.length = op.creates →
      s' = ⟨s.mem, s.mats ++ ms⟩ → o ≠ .panicked →
      (∃ new, s'.mats = s.mats ++ new ∧ new.length = op.created o) ∧
      s'.mem.bufs.length = s.mem.bufs.length + op.allocations o ∧
      (op.allocations o = 1 → ∃ b, s'.mats = s.mats ++ [.base b] ∧
        b.data = ⟨s.mem.bufs.length, 0, s'.mem.size s.mem.bufs.length⟩) ∧
      (∀ b, b < s.mem.bufs.length → s'.mem.size b = s.mem.size b) ∧
      (∀ q, q.buf < s.mem.bufs.length → (∀ h b, op.writesTo = some h → s.base? h = some b →
        ¬ inWindow q b) → s'.mem.get? q = s.mem.get? q) := by
    rintro ms ho hc rfl hp
    have ha : op.allocations o = 0 := by cases o <;> simp_all [Op.allocations]
    exact ⟨⟨ms, rfl, by cases o <;> simp_all [Op.created]⟩, by simp [ha], by simp [ha],
      fun _ _ => rfl, fun _ _ _ => rfl⟩
  have written : ∀ {mem : Mem α} {k : Nat} {b : BaseMatrix}, op.owns = false → op.creates = 0 →
      op.writesTo = some k → s.base? k = some b → Only b.data s.mem mem → s' = ⟨mem, s.mats⟩ →
      (∃ new, s'.mats = s.mats ++ new ∧ new.length = op.created o) ∧
      s'.mem.bufs.length = s.mem.bufs.length + op.allocations o ∧
      (op.allocations o = 1 → ∃ b, s'.mats = s.mats ++ [.base b] ∧
        b.data = ⟨s.mem.bufs.length, 0, s'.mem.size s.mem.bufs.length⟩) ∧
      (∀ b, b < s.mem.bufs.length → s'.mem.size b = s.mem.size b) ∧
      (∀ q, q.buf < s.mem.bufs.length → (∀ h b, op.writesTo = some h → s.base? h = some b →
        ¬ inWindow q b) → s'.mem.get? q = s.mem.get? q) := by
    rintro mem k b ho hc hw hb hm rfl
    have ha : op.allocations o = 0 := by cases o <;> simp_all [Op.allocations]
    exact ⟨⟨[], by simp, by cases o <;> simp_all [Op.created]⟩, by simp [ha, hm.nbufs],
      by simp [ha], fun x _ => hm.size x, fun q _ hq => hm.other q (hq k b hw hb)⟩
  have fresh : ∀ {x : BaseMatrix × Mem α}, op.owns = true → op.creates = 1 → Brings s.mem x →
      s' = s.push x → o = .done →
      (∃ new, s'.mats = s.mats ++ new ∧ new.length = op.created o) ∧
      s'.mem.bufs.length = s.mem.bufs.length + op.allocations o ∧
      (op.allocations o = 1 → ∃ b, s'.mats = s.mats ++ [.base b] ∧
        b.data = ⟨s.mem.bufs.length, 0, s'.mem.size s.mem.bufs.length⟩) ∧
      (∀ b, b < s.mem.bufs.length → s'.mem.size b = s.mem.size b) ∧
      (∀ q, q.buf < s.mem.bufs.length → (∀ h b, op.writesTo = some h → s.base? h = some b →
        ¬ inWindow q b) → s'.mem.get? q = s.mem.get? q) := by
    rintro ⟨b, mem⟩ ho hc ⟨ys, h1, h2⟩ rfl rfl
    simp only at h1 h2
    refine ⟨⟨[.base b], rfl, by simp [Op.created, hc]⟩, by simp [St.push, h1, Op.allocations, ho],
      fun _ => ⟨b, rfl, ?_⟩, fun x hx => ?_, fun q hq _ => ?_⟩
    · simp [h2, St.push, Mem.size, h1]
    · simp [St.push, Mem.size, h1, List.getElem?_append_left hx]
    · simp [St.push, Mem.get?, h1, List.getElem?_append_left hq]
  unfold Op.step at h
  cases he : op.exec cfg kern s with
  | ub => simp [he] at h
  | panic =>
    simp only [he, Option.some.injEq, Prod.mk.injEq] at h
    obtain ⟨rfl, rfl⟩ := h
    exact ⟨⟨[], by simp, rfl⟩, rfl, by simp [Op.allocations], fun _ _ => rfl, fun _ _ _ => rfl⟩
  | ok y =>
    simp only [he, Option.some.injEq] at h
    subst h
    cases op with
    | zeros k r c =>
      simp only [Op.exec, Out.bind_eq_ok, Out.pure_eq] at he
      obtain ⟨x, hx, he⟩ := he
      cases he; exact fresh rfl rfl (zeros_brings hx) rfl rfl
    | rowZeros n =>
      simp only [Op.exec, RowVectorD.zeros_from_length, Out.bind_eq_ok, Out.pure_eq] at he
      obtain ⟨x, ⟨d, hd, m, hm, hx⟩, he⟩ := he
      cases he; cases hx
      obtain ⟨ys, h1, h2⟩ := newVector_brings hd
      exact fresh rfl rfl ⟨ys, h1, (from_data_data hm).trans h2⟩ rfl rfl
    | rowZerosDim r c =>
      simp only [Op.exec, Out.bind_eq_ok, Out.pure_eq] at he
      obtain ⟨x, hx, he⟩ := he
      cases he; exact fresh rfl rfl (rowDim_brings hx) rfl rfl
    | colZeros n =>
      simp only [Op.exec, ColumnVectorD.zeros_from_length, Out.bind_eq_ok, Out.pure_eq] at he
      obtain ⟨x, ⟨d, hd, m, hm, hx⟩, he⟩ := he
      cases he; cases hx
      obtain ⟨ys, h1, h2⟩ := newVector_brings hd
      exact fresh rfl rfl ⟨ys, h1, (from_data_data hm).trans h2⟩ rfl rfl
    | colZerosDim r c =>
      simp only [Op.exec, Out.bind_eq_ok, Out.pure_eq] at he
      obtain ⟨x, hx, he⟩ := he
      cases he; exact fresh rfl rfl (colDim_brings hx) rfl rfl
    | fixedZeros rs cs k =>
      simp only [Op.exec] at he
      split at he
      · simp only [fixed_zeros_from_dim, Out.bind_eq_ok, Out.pure_eq] at he
        obtain ⟨x, ⟨l, hl, m, hm, hx⟩, he⟩ := he
        cases he; cases hx
        obtain ⟨ys, h1, h2⟩ := newArray_brings s.mem (rs.N * cs.N)
        exact fresh rfl rfl ⟨ys, h1, (from_data_data hm).trans h2⟩ rfl rfl
      · cases he
    | fixedVector rs cs k n =>
      simp only [Op.exec] at he
      split at he
      · unfold withSome at he
        split at he
        · simp only [fixed_zeros_from_length, Out.bind_eq_ok, Out.pure_eq] at he
          obtain ⟨x, ⟨m, hm, hx⟩, he⟩ := he
          cases he; cases hx
          obtain ⟨ys, h1, h2⟩ := newArray_brings s.mem n
          exact fresh rfl rfl ⟨ys, h1, (from_data_data hm).trans h2⟩ rfl rfl
        · cases he
      · cases he
    | fromSlice rs cs xs l =>
      simp only [Op.exec, Out.bind_eq_ok, Out.pure_eq] at he
      obtain ⟨d, hd, m, hm, he⟩ := he
      cases he
      obtain ⟨ys, h1, h2⟩ := newSlice_brings hd
      exact fresh rfl rfl ⟨ys, h1, (from_data_data hm).trans h2⟩ rfl rfl
    | fromVector rs cs n l =>
      simp only [Op.exec, Out.bind_eq_ok, Out.pure_eq] at he
      obtain ⟨d, hd, m, hm, he⟩ := he
      cases he
      obtain ⟨ys, h1, h2⟩ := newVector_brings hd
      exact fresh rfl rfl ⟨ys, h1, (from_data_data hm).trans h2⟩ rfl rfl
    | element k op =>
      simp only [Op.exec] at he
      unfold withSome at he
      split at he
      · rename_i b hb
        simp only [Out.bind_eq_ok, Out.pure_eq] at he
        obtain ⟨x, hx, he⟩ := he
        cases he
        cases op with
        | get r c =>
          have := exec_read (.inl ⟨r, c, rfl⟩) hx
          refine stay (ms := []) rfl rfl (by simp [this]) ?_
          simp only [exec, Out.bind_eq_ok, Out.pure_eq] at hx
          obtain ⟨_, _, hx⟩ := hx
          cases hx; simp [Resp.obs]
        | get1d k =>
          have := exec_read (.inr ⟨k, rfl⟩) hx
          refine stay (ms := []) rfl rfl (by simp [this]) ?_
          simp only [exec, Out.bind_eq_ok, Out.pure_eq] at hx
          obtain ⟨_, _, hx⟩ := hx
          cases hx; simp [Resp.obs]
        | set r c v => exact written rfl rfl rfl hb (exec_only hx) rfl
        | set1d k v => exact written rfl rfl rfl hb (exec_only hx) rfl
        | update r c f => exact written rfl rfl rfl hb (exec_only hx) rfl
        | update1d k f => exact written rfl rfl rfl hb (exec_only hx) rfl
      · cases he
    | get k r c =>
      simp only [Op.exec] at he
      unfold withSome at he
      split at he
      · simp only [Out.bind_eq_ok, Out.pure_eq] at he
        obtain ⟨v, hv, he⟩ := he
        cases he
        exact stay (ms := []) rfl rfl (by simp) (by simp)
      · cases he
    | get1d k i =>
      simp only [Op.exec] at he
      unfold withSome at he
      split at he
      · simp only [Out.bind_eq_ok, Out.pure_eq] at he
        obtain ⟨v, hv, he⟩ := he
        cases he
        exact stay (ms := []) rfl rfl (by simp) (by simp)
      · cases he
    | forEach k f =>
      simp only [Op.exec] at he
      unfold withSome at he
      split at he
      · rename_i b hb
        simp only [Out.bind_eq_ok, Out.pure_eq] at he
        obtain ⟨x, hx, he⟩ := he
        cases he
        exact written rfl rfl rfl hb (for_each_only hx) rfl
      · cases he
    | fillRand k draw =>
      simp only [Op.exec] at he
      unfold withSome at he
      split at he
      · rename_i b hb
        simp only [Out.bind_eq_ok, Out.pure_eq] at he
        obtain ⟨x, hx, he⟩ := he
        cases he
        exact written rfl rfl rfl hb (for_each_only hx) rfl
      · cases he
    | readSlice k first last =>
      simp only [Op.exec] at he
      unfold withSome at he
      split at he
      · simp only [Out.bind_eq_ok, Out.pure_eq] at he
        obtain ⟨_, _, _, _, he⟩ := he
        cases he
        exact stay (ms := []) rfl rfl (by simp) (by simp)
      · cases he
    | writeSlice k first last xs =>
      simp only [Op.exec] at he
      unfold withSome at he
      split at he
      · rename_i b hb
        simp only [Out.bind_eq_ok, Out.pure_eq] at he
        obtain ⟨w, hw, mem, hm, he⟩ := he
        cases he
        exact written rfl rfl rfl hb (writeList_only (get_slice_mut_window hw) hm) rfl
      · cases he
    | block k tl d =>
      simp only [Op.exec] at he
      unfold withSome at he
      split at he
      · beta_reduce at he
        split at he
        · simp only [Out.bind_eq_ok, Out.pure_eq] at he
          obtain ⟨v, hv, he⟩ := he
          cases he
          exact stay (ms := [.base v]) rfl rfl rfl (by simp)
        · cases he
      · cases he
    | split k p =>
      simp only [Op.exec] at he
      unfold withSome at he
      split at he
      · beta_reduce at he
        split at he
        · simp only [Out.bind_eq_ok, Out.pure_eq] at he
          obtain ⟨q, hq, he⟩ := he
          cases he
          exact stay rfl (by simp [Op.creates]) rfl (by simp)
        · cases he
      · cases he
    | ref k =>
      simp only [Op.exec] at he
      unfold withSome at he
      split at he
      · cases he
        exact stay rfl (by simp [Op.creates]) rfl (by simp)
      · cases he
    | add rl rr k1 k2 =>
      simp only [Op.exec] at he
      unfold withSome at he
      split at he
      · beta_reduce at he
        split at he
        · split at he
          · cases rl <;> cases rr <;>
            · simp only [Out.bind_eq_ok, Out.pure_eq] at he
              obtain ⟨m, hm, he⟩ := he
              cases he
              exact stay (ms := [m]) rfl rfl rfl (by simp)
          · cases he
        · cases he
      · cases he
    | scale sf br x k =>
      simp only [Op.exec] at he
      unfold withSome at he
      split at he
      · cases he
        exact stay rfl (by simp [Op.creates]) rfl (by simp)
      · cases he
    | eval k =>
      simp only [Op.exec] at he
      unfold withSome at he
      split at he
      · beta_reduce at he
        split at he
        · simp only [Out.bind_eq_ok, Out.pure_eq] at he
          obtain ⟨x, hx, he⟩ := he
          cases he
          exact fresh rfl rfl (eval_brings hx) rfl rfl
        · cases he
      · cases he
    | matmul alpha a b beta c =>
      simp only [Op.exec] at he
      unfold withSome at he
      split at he
      · beta_reduce at he
        split at he
        · split at he
          · rename_i mc hc
            split at he
            · simp only [Out.bind_eq_ok, Out.pure_eq] at he
              obtain ⟨mem, hm, he⟩ := he
              cases he
              exact written rfl rfl rfl hc (matmul_only hm) rfl
            · cases he
          · cases he
        · cases he
      · cases he
    | dot a b =>
      simp only [Op.exec] at he
      unfold withSome at he
      split at he
      · beta_reduce at he
        split at he
        · split at he
          · simp only [Out.bind_eq_ok, Out.pure_eq] at he
            obtain ⟨x, hx, he⟩ := he
            cases he
            exact fresh rfl rfl (dot_brings hx) rfl rfl
          · cases he
        · cases he
      · cases he

/-- **C73**, programs: after any program, as many allocations and values have been added as its
successful operations make; all earlier allocations have their size and all earlier values are
where they were; and a program without writing operations leaves what it found in memory. -/
theorem C73_programs [Target] (cfg : Cfg) (kern : Kern α) (s s' : St α) (ops : List (Op α))
    (os : List (Obs α)) (h : runProgram cfg kern s ops = some (os, s')) :
    s'.mem.bufs.length = s.mem.bufs.length + (List.zipWith Op.allocations ops os).sum ∧
    (∃ new, s'.mats = s.mats ++ new ∧ new.length = (List.zipWith Op.created ops os).sum) ∧
    (∀ b, b < s.mem.bufs.length → s'.mem.size b = s.mem.size b) ∧
    ((∀ op ∈ ops, op.writesTo = none) → Extends s.mem s'.mem) := by
  induction ops generalizing s os with
  | nil =>
    simp only [runProgram, Option.some.injEq, Prod.mk.injEq] at h
    obtain ⟨rfl, rfl⟩ := h
    exact ⟨by simp, ⟨[], by simp, by simp⟩, fun _ _ => rfl, fun _ => ⟨le_refl _, fun _ _ => rfl⟩⟩
  | cons op ops ih =>
    simp only [runProgram, Option.bind_eq_bind, Option.bind_eq_some_iff] at h
    obtain ⟨⟨o, s1⟩, h1, ⟨os', s2⟩, h2, h⟩ := h
    simp only [Option.pure_def, Option.some.injEq, Prod.mk.injEq] at h
    obtain ⟨rfl, rfl⟩ := h
    obtain ⟨⟨n1, e1, l1⟩, a1, -, z1, g1⟩ := C73_operation cfg kern s s1 op o h1
    obtain ⟨a2, ⟨n2, e2, l2⟩, z2, g2⟩ := ih s1 os' h2
    refine ⟨by simp only [List.zipWith_cons_cons, List.sum_cons]; omega,
      ⟨n1 ++ n2, by rw [e2, e1, List.append_assoc], by simp [l1, l2]⟩,
      fun b hb => by rw [z2 b (by omega), z1 b hb], fun hw => ?_⟩
    obtain ⟨g3, g4⟩ := g2 fun op hop => hw op (by simp [hop])
    refine ⟨by omega, fun q hq => ?_⟩
    rw [g4 q (by omega), g1 q hq fun k b hk => by rw [hw op (by simp)] at hk; cases hk]

end

/-! ### Examples -/

/-- A slice, a matrix of zeros, a view of the slice (no allocation), a sum (no allocation), its
evaluation, a failing read, and a write through the view. -/
def storageProgram : List (Op Int) :=
  [.fromSlice .dynamic .dynamic [1, 2, 3, 4, 5, 6] (.rowMajor ⟨(2, 3)⟩), .zeros .rowMajor 2 2,
   .block 0 (0, 1) (2, 2), .add true true 1 2, .eval 3, .element 1 (.get 5 5),
   .element 2 (.set 0 0 9), .split 1 (1, 1)]

example : (runProgram dbg exactKern St.init storageProgram).map (fun x => (x.1, x.2.mem.bufs)) =
    some ([.done, .done, .done, .done, .done, .panicked, .done, .done],
      [[1, 9, 3, 4, 5, 6], [0, 0, 0, 0], [2, 3, 5, 6]]) := by
  decide

example : List.zipWith Op.allocations storageProgram
    [.done, .done, .done, .done, .done, .panicked, .done, .done] = [1, 1, 0, 0, 1, 0, 0, 0] := by
  decide

example : List.zipWith Op.created storageProgram
    [.done, .done, .done, .done, .done, .panicked, .done, .done] = [1, 1, 1, 1, 1, 0, 0, 4] := by
  decide

example (os : List (Obs Int)) (s : St Int)
    (h : runProgram dbg exactKern St.init storageProgram = some (os, s)) :
    s.mem.bufs.length = 3 := by
  have h1 := (C73_programs dbg exactKern St.init s storageProgram os h).1
  have h2 : os = [.done, .done, .done, .done, .done, .panicked, .done, .done] := by
    have : (runProgram dbg exactKern St.init storageProgram).map (·.1) =
        some [.done, .done, .done, .done, .done, .panicked, .done, .done] := by decide
    simpa [h] using this
  rw [h1, h2]
  decide

end Householder.Props
