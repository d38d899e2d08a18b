import Verif.Lemmas.Relational
import Verif.Spec.Lifetimes
import Verif.Props.Alloc

/-!
# Operations depend only on the storage of their operands
-/

namespace Householder.Spec

open Props

variable {α : Type} {P : Nat → Prop}

/-- Memories with the same allocations, of which those in `P` are the same, among them all that are
still to come. -/
structure Agree (P : Nat → Prop) (mem mem' : Mem α) : Prop where
  nbufs : mem.bufs.length = mem'.bufs.length
  bufs : ∀ b, P b → mem.bufs[b]? = mem'.bufs[b]?
  fresh : ∀ b, mem.bufs.length ≤ b → P b

/-- Pairs of a plain value and a memory. -/
def PairAgree {A : Type} (P : Nat → Prop) (x y : A × Mem α) : Prop := x.1 = y.1 ∧ Agree P x.2 y.2

theorem OutRel.same' {A A' B' : Type} {S : A' → B' → Prop} {x : Out A} {f : A → Out A'}
    {g : A → Out B'} (hf : ∀ a, x = .ok a → OutRel S (f a) (g a)) :
    OutRel S (x >>= f) (x >>= g) := by
  cases x with
  | ok a => simpa using hf a rfl
  | panic => simpa using OutRel.panic
  | ub => simpa using OutRel.ub

theorem OutRel.eq {A : Type} {x y : Out A} (h : x = y) : OutRel Eq x y := by
  subst h; exact .refl (fun _ => rfl) _

section

variable {mem mem' : Mem α}

theorem Agree.get? (h : Agree P mem mem') {p : Loc} (hp : P p.buf) : mem.get? p = mem'.get? p := by
  unfold Mem.get?
  rw [h.bufs _ hp]

theorem Agree.read (h : Agree P mem mem') {p : Loc} (hp : P p.buf) : mem.read p = mem'.read p := by
  unfold Mem.read
  rw [h.get? hp]

theorem Agree.write (h : Agree P mem mem') {p : Loc} (hp : P p.buf) (v : α) :
    OutRel (Agree P) (mem.write p v) (mem'.write p v) := by
  unfold Mem.write
  rw [h.get? hp]
  cases mem'.get? p with
  | none => exact .ub
  | some _ =>
    refine .ok ⟨by simpa using h.nbufs, fun b hb => ?_, fun b hb => h.fresh b (by simpa using hb)⟩
    simp only [List.getElem?_modify, h.bufs b hb]

theorem Agree.alloc (h : Agree P mem mem') (xs : List α) :
    (mem.alloc xs).1 = (mem'.alloc xs).1 ∧ Agree P (mem.alloc xs).2 (mem'.alloc xs).2 := by
  refine ⟨h.nbufs, by simp [Mem.alloc, h.nbufs], fun b hb => ?_, fun b hb => ?_⟩
  · simp only [Mem.alloc, List.getElem?_append, h.nbufs, h.bufs b hb]
  · refine h.fresh b ?_
    simp only [Mem.alloc, List.length_append, List.length_singleton] at hb
    omega

theorem frame_newVector [Target] [Zero α] (cfg : Cfg) (h : Agree P mem mem') (n : Nat) :
    OutRel (PairAgree P) (Container.newVector cfg mem n) (Container.newVector cfg mem' n) := by
  unfold Container.newVector
  split
  · have := h.alloc (List.replicate n 0)
    exact .ok ⟨by simp [this.1], this.2⟩
  · exact .panic

theorem frame_newSlice [Target] (cfg : Cfg) (h : Agree P mem mem') (xs : List α) :
    OutRel (PairAgree P) (Container.newSlice cfg mem xs) (Container.newSlice cfg mem' xs) := by
  unfold Container.newSlice
  split
  · have := h.alloc xs
    exact .ok ⟨by simp [this.1], this.2⟩
  · exact .panic

theorem frame_get_unchecked (h : Agree P mem mem') {d : Container} (hd : P d.buf) (i : Nat) :
    d.get_unchecked mem i = d.get_unchecked mem' i := by
  unfold Container.get_unchecked
  split
  · exact h.read hd
  · rfl

theorem get_slice_buf {d w : Container} {first last : Nat} (h : d.get_slice first last = .ok w) :
    w.buf = d.buf := by
  simp only [Container.get_slice, Out.bind_eq_ok] at h
  obtain ⟨_, -, _, -, p, hp, h⟩ := h
  unfold Ptr.add at hp
  split at hp
  · cases hp
    unfold Ptr.from_raw_parts at h
    split at h
    · cases h; rfl
    · cases h
  · cases hp

theorem frame_toList (h : Agree P mem mem') {d : Container} (hd : P d.buf) :
    d.toList mem = d.toList mem' := by
  unfold Container.toList
  congr 1
  funext i
  exact frame_get_unchecked h hd i

theorem frame_writeList (h : Agree P mem mem') {d : Container} (hd : P d.buf) (xs : List α) :
    OutRel (Agree P) (d.writeList mem xs) (d.writeList mem' xs) := by
  unfold Container.writeList
  split
  · refine OutRel.forRange (fun i a b _ hab => ?_) h
    cases xs[i]? with
    | none => exact .panic
    | some v =>
      refine OutRel.same' fun p hp => hab.write ?_ v
      rw [(get_unchecked_mut_holds hp).1]; exact hd
  · exact .panic

/-! ## Matrices -/

theorem frame_bget_unchecked [Target] (cfg : Cfg) (h : Agree P mem mem') {b : BaseMatrix} (hb : P b.data.buf)
    (r c : Nat) : b.get_unchecked cfg mem r c = b.get_unchecked cfg mem' r c := by
  unfold BaseMatrix.get_unchecked
  congr 1
  funext k
  exact frame_get_unchecked h hb k

theorem frame_bget1d_unchecked [Target] (cfg : Cfg) (h : Agree P mem mem') {b : BaseMatrix}
    (hb : P b.data.buf) (k : Nat) : b.get1d_unchecked cfg mem k = b.get1d_unchecked cfg mem' k := by
  unfold BaseMatrix.get1d_unchecked
  congr 1
  funext k
  exact frame_get_unchecked h hb k

theorem frame_exec [Target] (cfg : Cfg) (h : Agree P mem mem') {b : BaseMatrix} (hb : P b.data.buf)
    (op : ArrOp α) : OutRel (PairAgree P) (exec cfg b mem op) (exec cfg b mem' op) := by
  have at' : ∀ {p : Loc}, Holds b.data p → P p.buf := fun hp => by rw [hp.1]; exact hb
  cases op with
  | get r c =>
    exact OutRel.bind (OutRel.same fun _ => .eq (frame_bget_unchecked cfg h hb r c))
      fun v v' hv => .ok ⟨by rw [hv], h⟩
  | get1d k =>
    exact OutRel.bind (OutRel.same fun _ => OutRel.same fun _ =>
      .eq (frame_bget1d_unchecked cfg h hb k)) fun v v' hv => .ok ⟨by rw [hv], h⟩
  | set r c v =>
    exact OutRel.bind (OutRel.same' fun p hp => h.write (at' (get_mut_holds hp)) v)
      fun _ _ hm => .ok ⟨rfl, hm⟩
  | set1d k v =>
    exact OutRel.bind (OutRel.same' fun p hp => h.write (at' (get1d_mut_holds hp)) v)
      fun _ _ hm => .ok ⟨rfl, hm⟩
  | update r c f =>
    refine OutRel.same' fun p hp => ?_
    have hp := at' (get_mut_holds hp)
    refine OutRel.bind (.eq (h.read hp)) fun v v' hv => ?_
    subst hv
    exact (h.write hp _).bind fun _ _ hm => .ok ⟨rfl, hm⟩
  | update1d k f =>
    refine OutRel.same' fun p hp => ?_
    have hp := at' (get1d_mut_holds hp)
    refine OutRel.bind (.eq (h.read hp)) fun v v' hv => ?_
    subst hv
    exact (h.write hp _).bind fun _ _ hm => .ok ⟨rfl, hm⟩

theorem frame_for_each [Target] {σ : Type} (cfg : Cfg) (h : Agree P mem mem') {b : BaseMatrix}
    (hb : P b.data.buf) (f : σ → α → σ × α) (s : σ) :
    OutRel (PairAgree P) (b.for_each cfg f s mem) (b.for_each cfg f s mem') := by
  refine OutRel.same fun n => OutRel.forRange (Q := PairAgree P) ?_ ⟨rfl, h⟩
  rintro i ⟨s, x⟩ ⟨s', y⟩ - ⟨hs, hxy⟩
  obtain rfl : s = s' := hs
  refine OutRel.same' fun p hp => ?_
  have hp : P p.buf := by rw [(get1d_unchecked_mut_holds hp).1]; exact hb
  refine OutRel.bind (.eq (hxy.read hp)) fun v v' hv => ?_
  subst hv
  exact (hxy.write hp _).bind fun _ _ hm => .ok ⟨rfl, hm⟩

/-- All storage of the expression is in `P`. -/
def StoredIn (P : Nat → Prop) (m : Mat α) : Prop := ∀ b ∈ storage m, P b

theorem StoredIn.base {b : BaseMatrix} (h : StoredIn P (.base b : Mat α)) : P b.data.buf :=
  h _ (by simp [storage])

variable [Zero α] [One α] [Add α] [Mul α]

omit [Zero α] [One α] in
theorem frame_mget_unchecked [Target] (cfg : Cfg) (h : Agree P mem mem') {m : Mat α} (hm : StoredIn P m)
    (r c : Nat) : m.get_unchecked cfg mem r c = m.get_unchecked cfg mem' r c := by
  induction m with
  | base b => exact frame_bget_unchecked cfg h hm.base r c
  | ref m ih => exact ih hm
  | addition a b l iha ihb =>
    simp only [Mat.get_unchecked]
    rw [iha fun x hx => hm x (by simp [storage, hx]), ihb fun x hx => hm x (by simp [storage, hx])]
  | scalarMult m s ih =>
    simp only [Mat.get_unchecked]
    rw [ih hm]

omit [Zero α] [One α] in
theorem frame_mget1d_unchecked [Target] (cfg : Cfg) (h : Agree P mem mem') {m : Mat α} (hm : StoredIn P m)
    (k : Nat) : m.get1d_unchecked cfg mem k = m.get1d_unchecked cfg mem' k := by
  induction m with
  | base b => exact frame_bget1d_unchecked cfg h hm.base k
  | ref m ih => exact ih hm
  | addition a b l iha ihb =>
    simp only [Mat.get1d_unchecked]
    rw [iha fun x hx => hm x (by simp [storage, hx]), ihb fun x hx => hm x (by simp [storage, hx])]
  | scalarMult m s ih =>
    simp only [Mat.get1d_unchecked]
    rw [ih hm]

omit [One α] [Add α] [Mul α] in
theorem frame_zeros [Target] (cfg : Cfg) (h : Agree P mem mem') (k : BaseKind) (rows cols : Nat) :
    OutRel (PairAgree P) (zeros_from_dim cfg k rows cols mem)
      (zeros_from_dim cfg k rows cols mem') := by
  refine OutRel.same fun l => OutRel.same fun n => (frame_newVector cfg h n).bind ?_
  rintro ⟨d, m1⟩ ⟨d', m1'⟩ ⟨hd, hm⟩
  obtain rfl : d = d' := hd
  exact OutRel.same fun l' => OutRel.same fun m => .ok ⟨rfl, hm⟩

omit [One α] [Add α] [Mul α] in
theorem frame_row [Target] (cfg : Cfg) (h : Agree P mem mem') (n : Nat) :
    OutRel (PairAgree P) (RowVectorD.zeros_from_length cfg n mem)
      (RowVectorD.zeros_from_length cfg n mem') := by
  refine (frame_newVector cfg h n).bind ?_
  rintro ⟨d, m1⟩ ⟨d', m1'⟩ ⟨hd, hm⟩
  obtain rfl : d = d' := hd
  exact OutRel.same fun m => .ok ⟨rfl, hm⟩

omit [One α] [Add α] [Mul α] in
theorem frame_col [Target] (cfg : Cfg) (h : Agree P mem mem') (n : Nat) :
    OutRel (PairAgree P) (ColumnVectorD.zeros_from_length cfg n mem)
      (ColumnVectorD.zeros_from_length cfg n mem') := by
  refine (frame_newVector cfg h n).bind ?_
  rintro ⟨d, m1⟩ ⟨d', m1'⟩ ⟨hd, hm⟩
  obtain rfl : d = d' := hd
  exact OutRel.same fun m => .ok ⟨rfl, hm⟩

omit [One α] [Add α] [Mul α] in
theorem frame_row_dim [Target] (cfg : Cfg) (h : Agree P mem mem') (rows cols : Nat) :
    OutRel (PairAgree P) (RowVectorD.zeros_from_dim cfg rows cols mem)
      (RowVectorD.zeros_from_dim cfg rows cols mem') := by
  refine OutRel.same fun _ => (frame_newVector cfg h cols).bind ?_
  rintro ⟨d, m1⟩ ⟨d', m1'⟩ ⟨hd, hm⟩
  obtain rfl : d = d' := hd
  exact OutRel.same fun m => .ok ⟨rfl, hm⟩

omit [One α] [Add α] [Mul α] in
theorem frame_col_dim [Target] (cfg : Cfg) (h : Agree P mem mem') (rows cols : Nat) :
    OutRel (PairAgree P) (ColumnVectorD.zeros_from_dim cfg rows cols mem)
      (ColumnVectorD.zeros_from_dim cfg rows cols mem') := by
  refine OutRel.same fun _ => (frame_newVector cfg h rows).bind ?_
  rintro ⟨d, m1⟩ ⟨d', m1'⟩ ⟨hd, hm⟩
  obtain rfl : d = d' := hd
  exact OutRel.same fun m => .ok ⟨rfl, hm⟩

omit [One α] [Add α] [Mul α] in
theorem frame_fixed [Target] (cfg : Cfg) (h : Agree P mem mem') (rs cs : SizeId) (k : BaseKind) :
    OutRel (PairAgree P) (fixed_zeros_from_dim cfg rs cs k mem)
      (fixed_zeros_from_dim cfg rs cs k mem') := by
  have ha := h.alloc (List.replicate (rs.N * cs.N) 0)
  unfold fixed_zeros_from_dim Container.newArray
  simp only [ha.1]
  exact OutRel.same fun l => OutRel.same fun m => .ok ⟨rfl, ha.2⟩

omit [One α] [Add α] [Mul α] in
theorem frame_fixed_vector [Target] (cfg : Cfg) (h : Agree P mem mem') (rs cs : SizeId) (l : Layout)
    (n : Nat) :
    OutRel (PairAgree P) (fixed_zeros_from_length cfg rs cs l n mem)
      (fixed_zeros_from_length cfg rs cs l n mem') := by
  have ha := h.alloc (List.replicate n 0)
  unfold fixed_zeros_from_length Container.newArray
  simp only [ha.1]
  exact OutRel.same fun m => .ok ⟨rfl, ha.2⟩

omit [One α] in
theorem frame_eval [Target] (cfg : Cfg) (h : Agree P mem mem') {m : Mat α} (hm : StoredIn P m) :
    OutRel (PairAgree P) (m.eval cfg mem) (m.eval cfg mem') := by
  have hz := frame_zeros cfg h m.layout.indexKind m.layout.dim.1 m.layout.dim.2
  have hbr : ∀ x, zeros_from_dim cfg m.layout.indexKind m.layout.dim.1 m.layout.dim.2 mem = .ok x →
      P x.1.data.buf := by
    intro x hx
    obtain ⟨ys, -, h2⟩ := zeros_brings hx
    rw [h2]
    exact h.fresh _ (le_refl _)
  unfold Mat.eval
  dsimp only
  revert hz hbr
  generalize zeros_from_dim cfg m.layout.indexKind m.layout.dim.1 m.layout.dim.2 mem = x
  generalize zeros_from_dim cfg m.layout.indexKind m.layout.dim.1 m.layout.dim.2 mem' = y
  intro hz hbr
  cases hz with
  | panic => exact .panic
  | ub => exact .ub
  | @ok z w hab =>
    obtain ⟨b, m1⟩ := z
    obtain ⟨b', m1'⟩ := w
    obtain ⟨hb, hm1⟩ := hab
    obtain rfl : b = b' := hb
    have hb := hbr _ rfl
    simp only [Out.bind_ok]
    refine OutRel.same fun n => ?_
    refine (OutRel.forRange (Q := Agree P) (fun i x y _ hxy => ?_) hm1).bind
      fun x y hxy => .ok ⟨rfl, hxy⟩
    refine OutRel.bind (.eq (frame_mget1d_unchecked cfg hxy hm i)) fun v v' hv => ?_
    subst hv
    refine OutRel.same' fun p hp => hxy.write ?_ v
    rw [(get1d_unchecked_mut_holds hp).1]; exact hb

omit [Zero α] [One α] [Add α] [Mul α] in
theorem frame_matmul [Target] (kern : Kern α) (h : Agree P mem mem') (alpha beta : α) {a b c : BaseMatrix}
    (ha : P a.data.buf) (hb : P b.data.buf) (hc : P c.data.buf) :
    OutRel (Agree P) (matmul kern alpha a b beta c mem) (matmul kern alpha a b beta c mem') := by
  unfold matmul
  refine OutRel.same fun _ => OutRel.same fun _ => OutRel.same fun _ => OutRel.same fun _ =>
    OutRel.same fun _ => OutRel.same fun _ => OutRel.same fun _ => ?_
  dsimp only
  unfold gemm
  split
  · refine OutRel.forRange (fun i x y _ hxy => OutRel.forRange (fun j x y _ hxy => ?_) hxy) h
    refine OutRel.bind (OutRel.mapM (Q := Eq) (fun l => ?_) _) fun ps ps' hps => ?_
    · refine OutRel.bind (.eq (hxy.read ha)) fun _ _ h1 => ?_
      subst h1
      refine OutRel.bind (.eq (hxy.read hb)) fun _ _ h2 => ?_
      subst h2
      exact .ok rfl
    · obtain rfl := List.forall₂_eq_eq_eq ▸ hps
      refine OutRel.bind (.eq (hxy.read hc)) fun _ _ h1 => ?_
      subst h1
      exact hxy.write hc _
  · exact .ub

omit [Add α] [Mul α] in
theorem frame_dot [Target] (cfg : Cfg) (kern : Kern α) (h : Agree P mem mem') (i : DotImpl)
    {a b : BaseMatrix} (ha : P a.data.buf) (hb : P b.data.buf) :
    OutRel (PairAgree P) (dot cfg kern i a b mem) (dot cfg kern i a b mem') := by
  have key : ∀ {x y : Out (BaseMatrix × Mem α)}, OutRel (PairAgree P) x y →
      (∀ z, x = .ok z → Brings mem z) →
      OutRel (PairAgree P) (x >>= fun z => matmul kern 1 a b 0 z.1 z.2 >>= fun m => pure (z.1, m))
        (y >>= fun z => matmul kern 1 a b 0 z.1 z.2 >>= fun m => pure (z.1, m)) := by
    intro x y hxy hbr
    cases hxy with
    | panic => exact .panic
    | ub => exact .ub
    | @ok z w hzw =>
      obtain ⟨c, m1⟩ := z
      obtain ⟨c', m1'⟩ := w
      obtain ⟨hc, hm1⟩ := hzw
      obtain rfl : c = c' := hc
      obtain ⟨ys, -, h2⟩ := hbr _ rfl
      have hc : P c.data.buf := by
        rw [show c.data = _ from h2]
        exact h.fresh _ (le_refl _)
      exact (frame_matmul kern hm1 1 0 ha hb hc).bind fun _ _ hm => .ok ⟨rfl, hm⟩
  cases i with
  | matMat => exact key (frame_zeros cfg h _ _ _) fun z hz => zeros_brings hz
  | rowMat => exact key (frame_row_dim cfg h _ _) fun z hz => rowDim_brings hz
  | matCol => exact key (frame_col_dim cfg h _ _) fun z hz => colDim_brings hz

/-! ## Programs -/

/-- The same observation, the same new values, and memories that agree. -/
def StepAgree (P : Nat → Prop) (s s' : St α) (x y : Obs α × St α) : Prop :=
  x.1 = y.1 ∧ (∃ new, x.2.mats = s.mats ++ new ∧ y.2.mats = s'.mats ++ new) ∧
    Agree P x.2.mem y.2.mem

/-- An operation gives the same results in two states that agree on its operands and their
storage. -/
theorem frame_op [Target] (cfg : Cfg) (kern : Kern α) {s s' : St α} (hs : Agree P s.mem s'.mem) (op : Op α)
    (hm : ∀ h ∈ op.operands, s.mats[h]? = s'.mats[h]?)
    (hP : ∀ h ∈ op.operands, ∀ m, s.mats[h]? = some m → StoredIn P m) :
    OutRel (StepAgree P s s') (op.exec cfg kern s) (op.exec cfg kern s') := by
  have hpush : ∀ {x y : Out (BaseMatrix × Mem α)},
      OutRel (PairAgree P) x y → OutRel (StepAgree P s s')
        (x >>= fun x => pure (Obs.done, s.push x)) (y >>= fun x => pure (Obs.done, s'.push x)) :=
    fun h => h.bind fun x y hxy => .ok ⟨rfl, ⟨[.base x.1], rfl, by simp [St.push, hxy.1]⟩, hxy.2⟩
  have hbase : ∀ h ∈ op.operands, s.base? h = s'.base? h := by
    intro h hh
    unfold St.base?
    rw [hm h hh]
  have hPb : ∀ h ∈ op.operands, ∀ b, s'.base? h = some b → P b.data.buf := by
    intro h hh b hb
    refine (hP h hh (.base b) ?_).base
    rw [← hbase h hh] at hb
    unfold St.base? at hb
    split at hb
    · rename_i b' hb'
      obtain rfl : b' = b := by simpa using hb
      exact hb'
    · simp at hb
  have some1 : ∀ {A B C : Type} {Q : B → C → Prop} (x : Option A) {f : A → Out B} {g : A → Out C},
      (∀ a, x = some a → OutRel Q (f a) (g a)) → OutRel Q (withSome x f) (withSome x g) := by
    intro A B C Q x f g h
    cases x with
    | none => exact .panic
    | some a => exact h a rfl
  cases op with
  | zeros k rows cols => exact hpush (frame_zeros cfg hs _ _ _)
  | rowZeros n => exact hpush (frame_row cfg hs _)
  | rowZerosDim rows cols => exact hpush (frame_row_dim cfg hs _ _)
  | colZeros n => exact hpush (frame_col cfg hs _)
  | colZerosDim rows cols => exact hpush (frame_col_dim cfg hs _ _)
  | fixedZeros rs cs k =>
    simp only [Op.exec]
    split
    · exact hpush (frame_fixed cfg hs _ _ _)
    · exact .panic
  | fixedVector rs cs k n =>
    simp only [Op.exec]
    split
    · exact rel_withSome_same _ fun l => hpush (frame_fixed_vector cfg hs _ _ _ _)
    · exact .panic
  | fromSlice rs cs xs l =>
    refine (frame_newSlice cfg hs xs).bind ?_
    rintro ⟨d, m1⟩ ⟨d', m1'⟩ ⟨hd, hm⟩
    obtain rfl : d = d' := hd
    exact OutRel.same fun m => .ok ⟨rfl, ⟨[.base m], rfl, rfl⟩, hm⟩
  | fromVector rs cs n l =>
    refine (frame_newVector cfg hs n).bind ?_
    rintro ⟨d, m1⟩ ⟨d', m1'⟩ ⟨hd, hm⟩
    obtain rfl : d = d' := hd
    exact OutRel.same fun m => .ok ⟨rfl, ⟨[.base m], rfl, rfl⟩, hm⟩
  | element i op =>
    simp only [Op.exec, hbase i (by simp [Op.operands])]
    exact some1 _ fun b hb => (frame_exec cfg hs (hPb i (by simp [Op.operands]) b hb) op).bind
      fun x y h => .ok ⟨by rw [h.1], ⟨[], by simp, by simp⟩, h.2⟩
  | get i r c =>
    simp only [Op.exec, hm i (by simp [Op.operands])]
    refine some1 _ fun m hm' => ?_
    have := hP i (by simp [Op.operands]) m (by rw [hm i (by simp [Op.operands]), hm'])
    exact OutRel.bind (OutRel.same fun _ => .eq (frame_mget_unchecked cfg hs this r c))
      fun v v' hv => .ok ⟨by rw [hv], ⟨[], by simp, by simp⟩, hs⟩
  | get1d i k =>
    simp only [Op.exec, hm i (by simp [Op.operands])]
    refine some1 _ fun m hm' => ?_
    have := hP i (by simp [Op.operands]) m (by rw [hm i (by simp [Op.operands]), hm'])
    exact OutRel.bind (OutRel.same fun _ => OutRel.same fun _ =>
      .eq (frame_mget1d_unchecked cfg hs this k))
      fun v v' hv => .ok ⟨by rw [hv], ⟨[], by simp, by simp⟩, hs⟩
  | forEach i f =>
    simp only [Op.exec, hbase i (by simp [Op.operands])]
    exact some1 _ fun b hb => (frame_for_each cfg hs (hPb i (by simp [Op.operands]) b hb) _ _).bind
      fun x y h => .ok ⟨rfl, ⟨[], by simp, by simp⟩, h.2⟩
  | fillRand i draw =>
    simp only [Op.exec, hbase i (by simp [Op.operands])]
    exact some1 _ fun b hb => (frame_for_each cfg hs (hPb i (by simp [Op.operands]) b hb) _ _).bind
      fun x y h => .ok ⟨rfl, ⟨[], by simp, by simp⟩, h.2⟩
  | readSlice i first last =>
    simp only [Op.exec, hbase i (by simp [Op.operands])]
    refine some1 _ fun b hb => OutRel.same' fun w hw => ?_
    have hb := hPb i (by simp [Op.operands]) b hb
    have hw : w.buf = b.data.buf := get_slice_buf hw
    refine OutRel.bind (.eq (frame_toList hs (by rw [hw]; exact hb))) fun v v' hv => ?_
    exact .ok ⟨by rw [hv], ⟨[], by simp, by simp⟩, hs⟩
  | writeSlice i first last xs =>
    simp only [Op.exec, hbase i (by simp [Op.operands])]
    refine some1 _ fun b hb => OutRel.same' fun w hw => ?_
    have hb := hPb i (by simp [Op.operands]) b hb
    have hw : w.buf = b.data.buf := (get_slice_mut_window hw).1
    exact (frame_writeList hs (by rw [hw]; exact hb) xs).bind fun x y h =>
      .ok ⟨rfl, ⟨[], by simp, by simp⟩, h⟩
  | block i tl d =>
    simp only [Op.exec, hbase i (by simp [Op.operands])]
    refine rel_withSome_same _ fun b => ?_
    split
    · exact OutRel.same fun v => .ok ⟨rfl, ⟨[.base v], rfl, rfl⟩, hs⟩
    · exact .panic
  | split i p =>
    simp only [Op.exec, hbase i (by simp [Op.operands])]
    refine rel_withSome_same _ fun b => ?_
    split
    · exact OutRel.same fun q => .ok ⟨rfl, ⟨_, rfl, rfl⟩, hs⟩
    · exact .panic
  | ref i =>
    simp only [Op.exec, hm i (by simp [Op.operands])]
    exact rel_withSome_same _ fun m => .ok ⟨rfl, ⟨_, rfl, rfl⟩, hs⟩
  | add rl rr i j =>
    simp only [Op.exec, hm i (by simp [Op.operands]), hm j (by simp [Op.operands])]
    refine rel_withSome_same _ fun a => rel_withSome_same _ fun b => ?_
    split
    · cases rl <;> cases rr <;> exact OutRel.same fun m => .ok ⟨rfl, ⟨_, rfl, rfl⟩, hs⟩
    · exact .panic
  | scale sf br x i =>
    simp only [Op.exec, hm i (by simp [Op.operands])]
    exact rel_withSome_same _ fun m => .ok ⟨rfl, ⟨_, rfl, rfl⟩, hs⟩
  | eval i =>
    simp only [Op.exec, hm i (by simp [Op.operands])]
    refine some1 _ fun m hm' => ?_
    have := hP i (by simp [Op.operands]) m (by rw [hm i (by simp [Op.operands]), hm'])
    split
    · exact hpush (frame_eval cfg hs this)
    · exact .panic
  | matmul alpha a b beta c =>
    simp only [Op.exec, hbase a (by simp [Op.operands]), hbase b (by simp [Op.operands]),
      hbase c (by simp [Op.operands])]
    refine some1 _ fun ma ha => some1 _ fun mb hb => some1 _ fun mc hc => ?_
    split
    · exact (frame_matmul kern hs _ _ (hPb a (by simp [Op.operands]) ma ha)
        (hPb b (by simp [Op.operands]) mb hb) (hPb c (by simp [Op.operands]) mc hc)).bind
        fun x y h => .ok ⟨rfl, ⟨[], by simp, by simp⟩, h⟩
    · exact .panic
  | dot a b =>
    simp only [Op.exec, hbase a (by simp [Op.operands]), hbase b (by simp [Op.operands])]
    exact some1 _ fun ma ha => some1 _ fun mb hb => rel_withSome_same _ fun i =>
      hpush (frame_dot cfg kern hs i (hPb a (by simp [Op.operands]) ma ha)
        (hPb b (by simp [Op.operands]) mb hb))

end

end Householder.Spec
