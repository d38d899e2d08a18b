import Verif.Spec.Relational
import Verif.Lemmas.Expr
import Mathlib.Data.List.Forall2

/-!
# The model's functions take related arguments to related results
-/

namespace Householder.Spec

variable {α β : Type} {R : α → β → Prop}

theorem OutRel.bind {A B A' B' : Type} {Q : A → B → Prop} {S : A' → B' → Prop} {x : Out A}
    {y : Out B} {f : A → Out A'} {g : B → Out B'} (h : OutRel Q x y)
    (hf : ∀ a b, Q a b → OutRel S (f a) (g b)) : OutRel S (x >>= f) (y >>= g) := by
  cases h with
  | ok h => simpa using hf _ _ h
  | panic => simpa using OutRel.panic
  | ub => simpa using OutRel.ub

theorem OutRel.same {A A' B' : Type} {S : A' → B' → Prop} {x : Out A} {f : A → Out A'}
    {g : A → Out B'} (hf : ∀ a, OutRel S (f a) (g a)) : OutRel S (x >>= f) (x >>= g) := by
  cases x with
  | ok a => simpa using hf a
  | panic => simpa using OutRel.panic
  | ub => simpa using OutRel.ub

theorem OutRel.refl {A : Type} {Q : A → A → Prop} (h : ∀ a, Q a a) (x : Out A) : OutRel Q x x := by
  cases x with
  | ok a => exact .ok (h a)
  | panic => exact .panic
  | ub => exact .ub

theorem OutRel.mono {A B : Type} {Q S : A → B → Prop} {x : Out A} {y : Out B} (h : OutRel Q x y)
    (hs : ∀ a b, Q a b → S a b) : OutRel S x y := by
  cases h with
  | ok h => exact .ok (hs _ _ h)
  | panic => exact .panic
  | ub => exact .ub

theorem OutRel.forRange {A B : Type} {Q : A → B → Prop} {n : Nat} {f : Nat → A → Out A}
    {g : Nat → B → Out B} (hf : ∀ i a b, i < n → Q a b → OutRel Q (f i a) (g i b)) {a : A} {b : B}
    (h : Q a b) : OutRel Q (forRange n f a) (forRange n g b) := by
  induction n with
  | zero => exact .ok h
  | succ n ih =>
    rw [forRange_succ, forRange_succ]
    exact (ih fun i a b hi => hf i a b (by omega)).bind fun a b hab => hf n a b (by omega) hab

theorem OutRel.mapM {A B C : Type} {Q : A → B → Prop} {f : C → Out A} {g : C → Out B}
    (hf : ∀ c, OutRel Q (f c) (g c)) (xs : List C) :
    OutRel (List.Forall₂ Q) (xs.mapM f) (xs.mapM g) := by
  induction xs with
  | nil => exact .ok .nil
  | cons c xs ih =>
    rw [List.mapM_cons, List.mapM_cons]
    exact (hf c).bind fun a b hab => ih.bind fun as bs habs => .ok (.cons hab habs)

/-! ## Memory -/

theorem forall₂_getElem? {A B : Type} {Q : A → B → Prop} {xs : List A} {ys : List B}
    (h : List.Forall₂ Q xs ys) (i : Nat) : Option.Rel Q xs[i]? ys[i]? := by
  induction h generalizing i with
  | nil => simpa using Option.Rel.none
  | cons h _ ih =>
    cases i with
    | zero => simpa using Option.Rel.some h
    | succ i => simpa using ih i

theorem forall₂_set {A B : Type} {Q : A → B → Prop} {xs : List A} {ys : List B}
    (h : List.Forall₂ Q xs ys) (i : Nat) {a : A} {b : B} (hab : Q a b) :
    List.Forall₂ Q (xs.set i a) (ys.set i b) := by
  induction h generalizing i with
  | nil => simp
  | cons h h' ih =>
    cases i with
    | zero => exact .cons hab h'
    | succ i => exact .cons h (ih i)

theorem forall₂_modify {A B : Type} {Q : A → B → Prop} {xs : List A} {ys : List B}
    (h : List.Forall₂ Q xs ys) (i : Nat) {f : A → A} {g : B → B} (hf : ∀ a b, Q a b → Q (f a) (g b)) :
    List.Forall₂ Q (xs.modify i f) (ys.modify i g) := by
  induction h generalizing i with
  | nil => simp
  | cons h h' ih =>
    cases i with
    | zero => exact .cons (hf _ _ h) h'
    | succ i => exact .cons h (ih i)

theorem MemRel.get? {mem : Mem α} {mem' : Mem β} (h : MemRel R mem mem') (p : Loc) :
    Option.Rel R (mem.get? p) (mem'.get? p) := by
  have := forall₂_getElem? h p.buf
  simp only [Mem.get?]
  revert this
  generalize mem.bufs[p.buf]? = x
  generalize mem'.bufs[p.buf]? = y
  intro this
  cases this with
  | none => exact .none
  | some h => exact forall₂_getElem? h p.idx

theorem MemRel.read {mem : Mem α} {mem' : Mem β} (h : MemRel R mem mem') (p : Loc) :
    OutRel R (mem.read p) (mem'.read p) := by
  have := h.get? p
  simp only [Mem.read]
  revert this
  generalize mem.get? p = x
  generalize mem'.get? p = y
  intro this
  cases this with
  | none => exact .ub
  | some h => exact .ok h

theorem MemRel.write {mem : Mem α} {mem' : Mem β} (h : MemRel R mem mem') (p : Loc) {v : α} {v' : β}
    (hv : R v v') : OutRel (MemRel R) (mem.write p v) (mem'.write p v') := by
  have := h.get? p
  simp only [Mem.write]
  revert this
  generalize mem.get? p = x
  generalize mem'.get? p = y
  intro this
  cases this with
  | none => exact .ub
  | some _ => exact .ok (forall₂_modify h _ fun a b hab => forall₂_set hab _ hv)

theorem MemRel.alloc {mem : Mem α} {mem' : Mem β} (h : MemRel R mem mem') {xs : List α} {ys : List β}
    (hx : List.Forall₂ R xs ys) :
    (mem.alloc xs).1 = (mem'.alloc ys).1 ∧ MemRel R (mem.alloc xs).2 (mem'.alloc ys).2 :=
  ⟨h.length_eq, List.rel_append h (.cons hx .nil)⟩

theorem MemRel.size {mem : Mem α} {mem' : Mem β} (h : MemRel R mem mem') (b : Nat) :
    mem.size b = mem'.size b := by
  have := forall₂_getElem? h b
  simp only [Mem.size]
  revert this
  generalize mem.bufs[b]? = x
  generalize mem'.bufs[b]? = y
  intro this
  cases this with
  | none => rfl
  | some h => simpa using h.length_eq

/-- Pairs of a plain value and a memory. -/
def PairRel {A : Type} (R : α → β → Prop) (x : A × Mem α) (y : A × Mem β) : Prop :=
  x.1 = y.1 ∧ MemRel R x.2 y.2

theorem forall₂_replicate {A B : Type} {Q : A → B → Prop} {a : A} {b : B} (h : Q a b) (n : Nat) :
    List.Forall₂ Q (List.replicate n a) (List.replicate n b) := by
  induction n with
  | zero => exact .nil
  | succ n ih => exact .cons h ih

section

variable {mem : Mem α} {mem' : Mem β}

theorem rel_newVector [Target] [Zero α] [Zero β] (cfg : Cfg) (h0 : R 0 0) (h : MemRel R mem mem') (n : Nat) :
    OutRel (PairRel R) (Container.newVector cfg mem n) (Container.newVector cfg mem' n) := by
  unfold Container.newVector
  split
  · have := h.alloc (forall₂_replicate h0 n)
    exact .ok ⟨by simp [this.1], this.2⟩
  · exact .panic

theorem rel_newSlice [Target] (cfg : Cfg) (h : MemRel R mem mem') {xs : List α} {ys : List β}
    (hx : List.Forall₂ R xs ys) :
    OutRel (PairRel R) (Container.newSlice cfg mem xs) (Container.newSlice cfg mem' ys) := by
  unfold Container.newSlice
  rw [hx.length_eq]
  split
  · have := h.alloc hx
    exact .ok ⟨by simp [this.1], this.2⟩
  · exact .panic

theorem rel_get_unchecked (h : MemRel R mem mem') (d : Container) (i : Nat) :
    OutRel R (d.get_unchecked mem i) (d.get_unchecked mem' i) := by
  unfold Container.get_unchecked
  split
  · exact h.read _
  · exact .ub

theorem rel_toList (h : MemRel R mem mem') (d : Container) :
    OutRel (List.Forall₂ R) (d.toList mem) (d.toList mem') :=
  OutRel.mapM (fun i => rel_get_unchecked h d i) _

theorem rel_writeList (h : MemRel R mem mem') (d : Container) {xs : List α} {ys : List β}
    (hx : List.Forall₂ R xs ys) :
    OutRel (MemRel R) (d.writeList mem xs) (d.writeList mem' ys) := by
  unfold Container.writeList
  rw [hx.length_eq]
  split
  · refine OutRel.forRange (fun i a b _ hab => ?_) h
    have := forall₂_getElem? hx i
    revert this
    generalize xs[i]? = x
    generalize ys[i]? = y
    intro this
    cases this with
    | none => exact .panic
    | some hv => exact OutRel.same fun p => hab.write p hv
  · exact .panic

/-! ## Matrices -/

theorem rel_bget_unchecked [Target] (cfg : Cfg) (h : MemRel R mem mem') (b : BaseMatrix) (r c : Nat) :
    OutRel R (b.get_unchecked cfg mem r c) (b.get_unchecked cfg mem' r c) :=
  OutRel.same fun k => rel_get_unchecked h _ k

theorem rel_bget1d_unchecked [Target] (cfg : Cfg) (h : MemRel R mem mem') (b : BaseMatrix) (k : Nat) :
    OutRel R (b.get1d_unchecked cfg mem k) (b.get1d_unchecked cfg mem' k) :=
  OutRel.same fun k => rel_get_unchecked h _ k

theorem rel_exec [Target] (cfg : Cfg) (h : MemRel R mem mem') (b : BaseMatrix) {op : ArrOp α} {op' : ArrOp β}
    (ho : ArrOpRel R op op') :
    OutRel (fun x y => ObsRel R x.1.obs y.1.obs ∧ MemRel R x.2 y.2) (exec cfg b mem op)
      (exec cfg b mem' op') := by
  cases ho with
  | get r c =>
    exact OutRel.bind (OutRel.same fun _ => rel_bget_unchecked cfg h b r c)
      fun v v' hv => .ok ⟨.value hv, h⟩
  | get1d k =>
    exact OutRel.bind (OutRel.same fun _ => OutRel.same fun _ => rel_bget1d_unchecked cfg h b k)
      fun v v' hv => .ok ⟨.value hv, h⟩
  | set r c hv =>
    exact OutRel.bind (OutRel.same fun p => h.write p hv) fun _ _ hm => .ok ⟨.done, hm⟩
  | set1d k hv =>
    exact OutRel.bind (OutRel.same fun p => h.write p hv) fun _ _ hm => .ok ⟨.done, hm⟩
  | update r c hf =>
    exact OutRel.same fun p => (h.read p).bind fun v v' hv =>
      (h.write p (hf _ _ hv)).bind fun _ _ hm => .ok ⟨.done, hm⟩
  | update1d k hf =>
    exact OutRel.same fun p => (h.read p).bind fun v v' hv =>
      (h.write p (hf _ _ hv)).bind fun _ _ hm => .ok ⟨.done, hm⟩

theorem rel_for_each [Target] {σ τ : Type} {S : σ → τ → Prop} (cfg : Cfg) (h : MemRel R mem mem')
    (b : BaseMatrix) {f : σ → α → σ × α} {g : τ → β → τ × β}
    (hf : ∀ s t x y, S s t → R x y → S (f s x).1 (g t y).1 ∧ R (f s x).2 (g t y).2) {s : σ} {t : τ}
    (hs : S s t) :
    OutRel (fun x y => S x.1 y.1 ∧ MemRel R x.2 y.2) (b.for_each cfg f s mem)
      (b.for_each cfg g t mem') := by
  refine OutRel.same fun n => OutRel.forRange (Q := fun (x : σ × Mem α) (y : τ × Mem β) => S x.1 y.1 ∧ MemRel R x.2 y.2) ?_ ⟨hs, h⟩
  intro i x y _ hxy
  refine OutRel.same fun p => (hxy.2.read p).bind fun v v' hv => ?_
  have := hf _ _ _ _ hxy.1 hv
  exact (hxy.2.write p this.2).bind fun _ _ hm => .ok ⟨this.1, hm⟩

theorem MatRel.layout {m : Mat α} {m' : Mat β} (h : MatRel R m m') : m.layout = m'.layout := by
  induction h with
  | base b => rfl
  | ref _ ih => exact ih
  | addition l _ _ _ _ => rfl
  | scalarMult _ _ ih => exact ih

theorem MatRel.sizes {m : Mat α} {m' : Mat β} (h : MatRel R m m') : m.sizes = m'.sizes := by
  induction h with
  | base b => rfl
  | ref _ ih => exact ih
  | addition l _ _ ih _ => exact ih
  | scalarMult _ _ ih => exact ih

variable [Zero α] [One α] [Add α] [Mul α] [Zero β] [One β] [Add β] [Mul β]

theorem rel_mget_unchecked [Target] (cfg : Cfg) (hR : Respects R) (h : MemRel R mem mem') {m : Mat α}
    {m' : Mat β} (hm : MatRel R m m') (r c : Nat) :
    OutRel R (m.get_unchecked cfg mem r c) (m'.get_unchecked cfg mem' r c) := by
  induction hm with
  | base b => exact rel_bget_unchecked cfg h b r c
  | ref _ ih => exact ih
  | addition l _ _ ih1 ih2 =>
    exact ih1.bind fun _ _ h1 => ih2.bind fun _ _ h2 => .ok (hR.add _ _ _ _ h1 h2)
  | scalarMult _ hs ih => exact ih.bind fun _ _ h1 => .ok (hR.mul _ _ _ _ hs h1)

theorem rel_mget1d_unchecked [Target] (cfg : Cfg) (hR : Respects R) (h : MemRel R mem mem') {m : Mat α}
    {m' : Mat β} (hm : MatRel R m m') (k : Nat) :
    OutRel R (m.get1d_unchecked cfg mem k) (m'.get1d_unchecked cfg mem' k) := by
  induction hm with
  | base b => exact rel_bget1d_unchecked cfg h b k
  | ref _ ih => exact ih
  | addition l _ _ ih1 ih2 =>
    exact ih1.bind fun _ _ h1 => ih2.bind fun _ _ h2 => .ok (hR.add _ _ _ _ h1 h2)
  | scalarMult _ hs ih => exact ih.bind fun _ _ h1 => .ok (hR.mul _ _ _ _ hs h1)

omit [One α] [Add α] [Mul α] [One β] [Add β] [Mul β] in
theorem rel_zeros [Target] (cfg : Cfg) (h0 : R 0 0) (h : MemRel R mem mem') (k : BaseKind) (rows cols : Nat) :
    OutRel (PairRel R) (zeros_from_dim cfg k rows cols mem) (zeros_from_dim cfg k rows cols mem') := by
  refine OutRel.same fun l => OutRel.same fun n => (rel_newVector cfg h0 h n).bind ?_
  rintro ⟨d, m1⟩ ⟨d', m1'⟩ ⟨hd, hm⟩
  obtain rfl : d = d' := hd
  exact OutRel.same fun l' => OutRel.same fun m => .ok ⟨rfl, hm⟩

omit [One α] [Add α] [Mul α] [One β] [Add β] [Mul β] in
theorem rel_row [Target] (cfg : Cfg) (h0 : R 0 0) (h : MemRel R mem mem') (n : Nat) :
    OutRel (PairRel R) (RowVectorD.zeros_from_length cfg n mem)
      (RowVectorD.zeros_from_length cfg n mem') := by
  refine (rel_newVector cfg h0 h n).bind ?_
  rintro ⟨d, m1⟩ ⟨d', m1'⟩ ⟨hd, hm⟩
  obtain rfl : d = d' := hd
  exact OutRel.same fun m => .ok ⟨rfl, hm⟩

omit [One α] [Add α] [Mul α] [One β] [Add β] [Mul β] in
theorem rel_col [Target] (cfg : Cfg) (h0 : R 0 0) (h : MemRel R mem mem') (n : Nat) :
    OutRel (PairRel R) (ColumnVectorD.zeros_from_length cfg n mem)
      (ColumnVectorD.zeros_from_length cfg n mem') := by
  refine (rel_newVector cfg h0 h n).bind ?_
  rintro ⟨d, m1⟩ ⟨d', m1'⟩ ⟨hd, hm⟩
  obtain rfl : d = d' := hd
  exact OutRel.same fun m => .ok ⟨rfl, hm⟩

omit [One α] [Add α] [Mul α] [One β] [Add β] [Mul β] in
theorem rel_row_dim [Target] (cfg : Cfg) (h0 : R 0 0) (h : MemRel R mem mem') (rows cols : Nat) :
    OutRel (PairRel R) (RowVectorD.zeros_from_dim cfg rows cols mem)
      (RowVectorD.zeros_from_dim cfg rows cols mem') := by
  refine OutRel.same fun _ => (rel_newVector cfg h0 h cols).bind ?_
  rintro ⟨d, m1⟩ ⟨d', m1'⟩ ⟨hd, hm⟩
  obtain rfl : d = d' := hd
  exact OutRel.same fun m => .ok ⟨rfl, hm⟩

omit [One α] [Add α] [Mul α] [One β] [Add β] [Mul β] in
theorem rel_col_dim [Target] (cfg : Cfg) (h0 : R 0 0) (h : MemRel R mem mem') (rows cols : Nat) :
    OutRel (PairRel R) (ColumnVectorD.zeros_from_dim cfg rows cols mem)
      (ColumnVectorD.zeros_from_dim cfg rows cols mem') := by
  refine OutRel.same fun _ => (rel_newVector cfg h0 h rows).bind ?_
  rintro ⟨d, m1⟩ ⟨d', m1'⟩ ⟨hd, hm⟩
  obtain rfl : d = d' := hd
  exact OutRel.same fun m => .ok ⟨rfl, hm⟩

omit [One α] [Add α] [Mul α] [One β] [Add β] [Mul β] in
theorem rel_fixed [Target] (cfg : Cfg) (h0 : R 0 0) (h : MemRel R mem mem') (rs cs : SizeId) (k : BaseKind) :
    OutRel (PairRel R) (fixed_zeros_from_dim cfg rs cs k mem)
      (fixed_zeros_from_dim cfg rs cs k mem') := by
  have ha := h.alloc (forall₂_replicate h0 (rs.N * cs.N))
  unfold fixed_zeros_from_dim Container.newArray
  simp only [ha.1]
  exact OutRel.same fun l => OutRel.same fun m => .ok ⟨rfl, ha.2⟩

omit [One α] [Add α] [Mul α] [One β] [Add β] [Mul β] in
theorem rel_fixed_vector [Target] (cfg : Cfg) (h0 : R 0 0) (h : MemRel R mem mem') (rs cs : SizeId) (l : Layout)
    (n : Nat) :
    OutRel (PairRel R) (fixed_zeros_from_length cfg rs cs l n mem)
      (fixed_zeros_from_length cfg rs cs l n mem') := by
  have ha := h.alloc (forall₂_replicate h0 n)
  unfold fixed_zeros_from_length Container.newArray
  simp only [ha.1]
  exact OutRel.same fun m => .ok ⟨rfl, ha.2⟩

theorem rel_eval [Target] (cfg : Cfg) (hR : Respects R) (h : MemRel R mem mem') {m : Mat α} {m' : Mat β}
    (hm : MatRel R m m') : OutRel (PairRel R) (m.eval cfg mem) (m'.eval cfg mem') := by
  unfold Mat.eval
  rw [← hm.layout]
  refine (rel_zeros cfg hR.zero h _ _ _).bind ?_
  rintro ⟨b, m1⟩ ⟨b', m1'⟩ ⟨hb, hm1⟩
  obtain rfl : b = b' := hb
  refine OutRel.same fun n => ?_
  refine (OutRel.forRange (Q := MemRel R) (fun i x y _ hxy => ?_) hm1).bind
    fun x y hxy => .ok ⟨rfl, hxy⟩
  exact (rel_mget1d_unchecked cfg hR hxy hm i).bind fun v v' hv => OutRel.same fun p => hxy.write p hv

omit [Zero α] [One α] [Add α] [Mul α] [Zero β] [One β] [Add β] [Mul β] in
theorem rel_matmul [Target] {kern : Kern α} {kern' : Kern β} (hk : KernRel R kern kern')
    (h : MemRel R mem mem') {alpha beta : α} {alpha' beta' : β} (ha : R alpha alpha')
    (hb : R beta beta') (a b c : BaseMatrix) :
    OutRel (MemRel R) (matmul kern alpha a b beta c mem) (matmul kern' alpha' a b beta' c mem') := by
  unfold matmul
  refine OutRel.same fun _ => OutRel.same fun _ => OutRel.same fun _ => OutRel.same fun _ =>
    OutRel.same fun _ => OutRel.same fun _ => OutRel.same fun _ => ?_
  dsimp only
  unfold gemm
  split
  · refine OutRel.forRange (fun i x y _ hxy => OutRel.forRange (fun j x y _ hxy => ?_) hxy) h
    refine OutRel.bind (OutRel.mapM (Q := fun (p : α × α) (p' : β × β) => R p.1 p'.1 ∧ R p.2 p'.2) (fun l => ?_) _)
      fun ps ps' hps => ?_
    · exact (hxy.read _).bind fun _ _ h1 => (hxy.read _).bind fun _ _ h2 => .ok ⟨h1, h2⟩
    · exact (hxy.read _).bind fun _ _ h1 => hxy.write _ (hk _ _ _ _ _ _ _ _ _ ha hps hb h1)
  · exact .ub

theorem rel_dot [Target] (cfg : Cfg) {kern : Kern α} {kern' : Kern β} (hk : KernRel R kern kern')
    (hR : Respects R) (h : MemRel R mem mem') (i : DotImpl) (a b : BaseMatrix) :
    OutRel (PairRel R) (dot cfg kern i a b mem) (dot cfg kern' i a b mem') := by
  have key : ∀ {x : Out (BaseMatrix × Mem α)} {y : Out (BaseMatrix × Mem β)}, OutRel (PairRel R) x y →
      OutRel (PairRel R) (x >>= fun z => matmul kern 1 a b 0 z.1 z.2 >>= fun m => pure (z.1, m))
        (y >>= fun z => matmul kern' 1 a b 0 z.1 z.2 >>= fun m => pure (z.1, m)) := by
    intro x y hxy
    refine hxy.bind ?_
    rintro ⟨b, m1⟩ ⟨b', m1'⟩ ⟨hb, hm1⟩
    obtain rfl : b = b' := hb
    exact (rel_matmul hk hm1 hR.one hR.zero _ _ _).bind fun _ _ hm => .ok ⟨rfl, hm⟩
  cases i with
  | matMat => exact key (rel_zeros cfg hR.zero h _ _ _)
  | rowMat => exact key (rel_row_dim cfg hR.zero h _ _)
  | matCol => exact key (rel_col_dim cfg hR.zero h _ _)

/-! ## Programs -/

omit [Zero α] [One α] [Add α] [Mul α] [Zero β] [One β] [Add β] [Mul β] in
theorem StRel.base? {s : St α} {s' : St β} (h : StRel R s s') (i : Nat) : s.base? i = s'.base? i := by
  have := forall₂_getElem? h.mats i
  simp only [St.base?]
  revert this
  generalize s.mats[i]? = x
  generalize s'.mats[i]? = y
  intro this
  cases this with
  | none => rfl
  | some h => cases h <;> rfl

omit [Zero α] [One α] [Add α] [Mul α] [Zero β] [One β] [Add β] [Mul β] in
theorem StRel.push {s : St α} {s' : St β} (h : StRel R s s') {x : BaseMatrix × Mem α}
    {y : BaseMatrix × Mem β} (hxy : PairRel R x y) : StRel R (s.push x) (s'.push y) := by
  obtain ⟨b, m⟩ := x
  obtain ⟨b', m'⟩ := y
  obtain ⟨hb, hm⟩ := hxy
  obtain rfl : b = b' := hb
  exact ⟨hm, List.rel_append h.mats (.cons (.base b) .nil)⟩

/-- Related observations and states. -/
def StepRel (R : α → β → Prop) (x : Obs α × St α) (y : Obs β × St β) : Prop :=
  ObsRel R x.1 y.1 ∧ StRel R x.2 y.2

omit [Zero α] [One α] [Add α] [Mul α] [Zero β] [One β] [Add β] [Mul β] in
theorem rel_withSome_same {A B C : Type} {Q : B → C → Prop} (x : Option A) {f : A → Out B}
    {g : A → Out C} (h : ∀ a, OutRel Q (f a) (g a)) : OutRel Q (withSome x f) (withSome x g) := by
  cases x with
  | none => exact .panic
  | some a => exact h a

omit [Zero α] [One α] [Add α] [Mul α] [Zero β] [One β] [Add β] [Mul β] in
theorem rel_withSome {A A' B C : Type} {P : A → A' → Prop} {Q : B → C → Prop} {x : Option A}
    {y : Option A'} (hxy : Option.Rel P x y) {f : A → Out B}
    {g : A' → Out C} (h : ∀ a a', P a a' → OutRel Q (f a) (g a')) :
    OutRel Q (withSome x f) (withSome y g) := by
  cases hxy with
  | none => exact .panic
  | some ha => exact h _ _ ha

omit [Zero α] [One α] [Add α] [Mul α] [Zero β] [One β] [Add β] [Mul β] in
theorem rel_addition {a b : Mat α} {a' b' : Mat β} (ha : MatRel R a a') (hb : MatRel R b b') :
    OutRel (MatRel R) (Mat.addition_new a b) (Mat.addition_new a' b') := by
  unfold Mat.addition_new
  rw [ha.layout, hb.layout]
  exact OutRel.same fun _ => .ok (.addition _ ha hb)

theorem rel_op [Target] (cfg : Cfg) {kern : Kern α} {kern' : Kern β} (hk : KernRel R kern kern')
    (hR : Respects R) {s : St α} {s' : St β} (hs : StRel R s s') {op : Op α} {op' : Op β}
    (ho : OpRel R op op') : OutRel (StepRel R) (op.exec cfg kern s) (op'.exec cfg kern' s') := by
  have hpush : ∀ {x : Out (BaseMatrix × Mem α)} {y : Out (BaseMatrix × Mem β)},
      OutRel (PairRel R) x y → OutRel (StepRel R) (x >>= fun x => pure (Obs.done, s.push x))
        (y >>= fun x => pure (Obs.done, s'.push x)) :=
    fun h => h.bind fun _ _ hxy => .ok ⟨.done, hs.push hxy⟩
  cases ho with
  | zeros k rows cols => exact hpush (rel_zeros cfg hR.zero hs.mem _ _ _)
  | rowZeros n => exact hpush (rel_row cfg hR.zero hs.mem _)
  | rowZerosDim rows cols => exact hpush (rel_row_dim cfg hR.zero hs.mem _ _)
  | colZeros n => exact hpush (rel_col cfg hR.zero hs.mem _)
  | colZerosDim rows cols => exact hpush (rel_col_dim cfg hR.zero hs.mem _ _)
  | fixedZeros rs cs k =>
    simp only [Op.exec]
    split
    · exact hpush (rel_fixed cfg hR.zero hs.mem _ _ _)
    · exact .panic
  | fixedVector rs cs k n =>
    simp only [Op.exec]
    split
    · exact rel_withSome_same _ fun l => hpush (rel_fixed_vector cfg hR.zero hs.mem _ _ _ _)
    · exact .panic
  | fromSlice rs cs l hx =>
    refine (rel_newSlice cfg hs.mem hx).bind ?_
    rintro ⟨d, m1⟩ ⟨d', m1'⟩ ⟨hd, hm⟩
    obtain rfl : d = d' := hd
    exact OutRel.same fun m => .ok ⟨.done, hs.push ⟨rfl, hm⟩⟩
  | fromVector rs cs n l =>
    refine (rel_newVector cfg hR.zero hs.mem n).bind ?_
    rintro ⟨d, m1⟩ ⟨d', m1'⟩ ⟨hd, hm⟩
    obtain rfl : d = d' := hd
    exact OutRel.same fun m => .ok ⟨.done, hs.push ⟨rfl, hm⟩⟩
  | element i hop =>
    simp only [Op.exec, hs.base? i]
    exact rel_withSome_same _ fun b => (rel_exec cfg hs.mem b hop).bind
      fun _ _ h => .ok ⟨h.1, h.2, hs.mats⟩
  | get i r c =>
    exact rel_withSome (forall₂_getElem? hs.mats i) fun m m' hm => by
      unfold Mat.get
      rw [hm.layout]
      exact OutRel.bind (OutRel.same fun _ => rel_mget_unchecked cfg hR hs.mem hm r c)
        fun _ _ hv => .ok ⟨.value hv, hs⟩
  | get1d i k =>
    exact rel_withSome (forall₂_getElem? hs.mats i) fun m m' hm => by
      unfold Mat.get1d
      rw [hm.layout]
      exact OutRel.bind (OutRel.same fun _ => OutRel.same fun _ =>
        rel_mget1d_unchecked cfg hR hs.mem hm k) fun _ _ hv => .ok ⟨.value hv, hs⟩
  | forEach i hf =>
    simp only [Op.exec, hs.base? i]
    refine rel_withSome_same _ fun b => ?_
    refine (rel_for_each (S := List.Forall₂ R) cfg hs.mem b (fun s t x y hst hxy =>
      ⟨List.rel_append hst (.cons hxy .nil), hf _ _ _ _ hst hxy⟩) .nil).bind
      fun _ _ h => .ok ⟨.done, h.2, hs.mats⟩
  | fillRand i hd =>
    simp only [Op.exec, hs.base? i]
    refine rel_withSome_same _ fun b => ?_
    refine (rel_for_each (S := Eq) cfg hs.mem b (fun s t x y hst hxy => ?_) rfl).bind
      fun _ _ h => .ok ⟨.done, h.2, hs.mats⟩
    subst hst
    exact ⟨rfl, hd _⟩
  | readSlice i first last =>
    simp only [Op.exec, hs.base? i]
    exact rel_withSome_same _ fun b => OutRel.same fun w =>
      (rel_toList hs.mem w).bind fun _ _ h => .ok ⟨.values h, hs⟩
  | writeSlice i first last hx =>
    simp only [Op.exec, hs.base? i]
    exact rel_withSome_same _ fun b => OutRel.same fun w =>
      (rel_writeList hs.mem w hx).bind fun _ _ h => .ok ⟨.done, h, hs.mats⟩
  | block i tl d =>
    simp only [Op.exec, hs.base? i]
    refine rel_withSome_same _ fun b => ?_
    split
    · exact OutRel.same fun v => .ok ⟨.done, hs.push ⟨rfl, hs.mem⟩⟩
    · exact .panic
  | split i p =>
    simp only [Op.exec, hs.base? i]
    refine rel_withSome_same _ fun b => ?_
    split
    · refine OutRel.same fun q => .ok ⟨.done, hs.mem, List.rel_append hs.mats ?_⟩
      rw [List.forall₂_map_left_iff, List.forall₂_map_right_iff, List.forall₂_same]
      exact fun k _ => .base _
    · exact .panic
  | ref i =>
    exact rel_withSome (forall₂_getElem? hs.mats i) fun m m' hm =>
      .ok ⟨.done, hs.mem, List.rel_append hs.mats (.cons (.ref hm) .nil)⟩
  | add rl rr i j =>
    refine rel_withSome (forall₂_getElem? hs.mats i) fun a a' ha => ?_
    refine rel_withSome (forall₂_getElem? hs.mats j) fun b b' hb => ?_
    rw [ha.layout, hb.layout, ha.sizes, hb.sizes]
    split
    · have key : ∀ {x : Out (Mat α)} {y : Out (Mat β)}, OutRel (MatRel R) x y →
          OutRel (StepRel R) (x >>= fun m => pure (Obs.done, { mem := s.mem, mats := s.mats ++ [m] }))
            (y >>= fun m => pure (Obs.done, { mem := s'.mem, mats := s'.mats ++ [m] })) :=
        fun h => h.bind fun _ _ hm => .ok ⟨.done, hs.mem, List.rel_append hs.mats (.cons hm .nil)⟩
      cases rl <;> cases rr
      · exact key (rel_addition ha hb)
      · exact key (rel_addition ha (.ref hb))
      · exact key (rel_addition (.ref ha) hb)
      · exact key (rel_addition (.ref ha) (.ref hb))
    · exact .panic
  | scale sf br i hx =>
    refine rel_withSome (forall₂_getElem? hs.mats i) fun a a' ha => ?_
    refine .ok ⟨.done, hs.mem, List.rel_append hs.mats (.cons ?_ .nil)⟩
    cases sf <;> cases br
    · exact .scalarMult ha hx
    · exact .scalarMult (.ref ha) hx
    · exact .scalarMult ha hx
    · exact .scalarMult (.ref ha) hx
  | eval i =>
    refine rel_withSome (forall₂_getElem? hs.mats i) fun a a' ha => ?_
    rw [ha.sizes]
    split
    · exact hpush (rel_eval cfg hR hs.mem ha)
    · exact .panic
  | matmul a b c ha hb =>
    simp only [Op.exec, hs.base? a, hs.base? b, hs.base? c]
    refine rel_withSome_same _ fun ma => rel_withSome_same _ fun mb => rel_withSome_same _ fun mc => ?_
    split
    · exact (rel_matmul hk hs.mem ha hb _ _ _).bind fun _ _ h => .ok ⟨.done, h, hs.mats⟩
    · exact .panic
  | dot a b =>
    simp only [Op.exec, hs.base? a, hs.base? b]
    exact rel_withSome_same _ fun ma => rel_withSome_same _ fun mb => rel_withSome_same _ fun i =>
      hpush (rel_dot cfg hk hR hs.mem i _ _)

theorem rel_step [Target] (cfg : Cfg) {kern : Kern α} {kern' : Kern β} (hk : KernRel R kern kern')
    (hR : Respects R) {s : St α} {s' : St β} (hs : StRel R s s') {op : Op α} {op' : Op β}
    (ho : OpRel R op op') :
    Option.Rel (StepRel R) (op.step cfg kern s) (op'.step cfg kern' s') := by
  have := rel_op cfg hk hR hs ho
  unfold Op.step
  revert this
  generalize op.exec cfg kern s = x
  generalize op'.exec cfg kern' s' = y
  intro this
  cases this with
  | ok h => exact .some h
  | panic => exact .some ⟨.panicked, hs⟩
  | ub => exact .none

theorem rel_run [Target] (cfg : Cfg) {kern : Kern α} {kern' : Kern β} (hk : KernRel R kern kern')
    (hR : Respects R) {ops : List (Op α)} {ops' : List (Op β)} (ho : List.Forall₂ (OpRel R) ops ops')
    {s : St α} {s' : St β} (hs : StRel R s s') :
    Option.Rel (fun x y => List.Forall₂ (ObsRel R) x.1 y.1 ∧ StRel R x.2 y.2)
      (runProgram cfg kern s ops) (runProgram cfg kern' s' ops') := by
  induction ho generalizing s s' with
  | nil => exact .some ⟨.nil, hs⟩
  | cons ho _ ih =>
    have h1 := rel_step cfg hk hR hs ho
    simp only [runProgram]
    revert h1
    generalize Op.step cfg kern s _ = x
    generalize Op.step cfg kern' s' _ = y
    intro h1
    cases h1 with
    | none => exact .none
    | some h1 =>
      have h2 := ih h1.2
      simp only [Option.bind_eq_bind, Option.bind_some]
      revert h2
      generalize runProgram cfg kern _ _ = x
      generalize runProgram cfg kern' _ _ = y
      intro h2
      cases h2 with
      | none => exact .none
      | some h2 => exact .some ⟨.cons h1.1 h2.1, h2.2⟩

end

end Householder.Spec
