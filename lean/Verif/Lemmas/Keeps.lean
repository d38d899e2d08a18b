import Verif.Lemmas.Steps
import Verif.Props.Exclusive

/-!
# Where operations read and write
-/

namespace Householder.Spec

open Steps Props

variable {α β γ σ : Type} {n : Nat} {R W : Loc → Prop}

theorem Keeps.imp {R' W' : Loc → Prop} {Q Q' : β → Prop} {t : Steps α β} (h : Keeps n R W Q t)
    (hR : ∀ q, R q → n ≤ q.buf ∨ R' q) (hW : ∀ q, W q → n ≤ q.buf ∨ W' q) (hQ : ∀ b, Q b → Q' b) :
    Keeps n R' W' Q' t := by
  induction t with
  | done x => cases x with
    | ok b => exact hQ b h
    | _ => trivial
  | read p k ih => exact ⟨h.1.elim .inl (hR p), fun v => ih v (h.2 v)⟩
  | write p v k ih => exact ⟨h.1.elim .inl (hW p), ih h.2⟩
  | alloc xs k ih => exact fun b hb => ih b (h b hb)

theorem Keeps.bind {Q : β → Prop} {S : γ → Prop} {t : Steps α β} {f : β → Steps α γ}
    (h : Keeps n R W Q t) (hf : ∀ b, Q b → Keeps n R W S (f b)) : Keeps n R W S (t >>= f) := by
  induction t with
  | done x => cases x with
    | ok b => exact hf b h
    | _ => trivial
  | read p k ih => exact ⟨h.1, fun v => ih v (h.2 v)⟩
  | write p v k ih => exact ⟨h.1, ih h.2⟩
  | alloc xs k ih => exact fun b hb => ih b (h b hb)

theorem Keeps.done {Q : β → Prop} (x : Out β) (h : ∀ b, x = .ok b → Q b) :
    Keeps (α := α) n R W Q (.done x) := by
  cases x with
  | ok b => exact h b rfl
  | _ => trivial

theorem Keeps.forRange {Q : σ → Prop} (k : Nat) {f : Nat → σ → Steps α σ} {s : σ} (hs : Q s)
    (h : ∀ i b, i < k → Q b → Keeps n R W Q (f i b)) : Keeps n R W Q (Steps.forRange k f s) := by
  induction k with
  | zero => exact hs
  | succ k ih =>
    rw [Steps.forRange_succ]
    exact Keeps.bind (ih fun i b hi => h i b (by omega)) fun b hb => h k b (by omega) hb

theorem Keeps.mapM {A : Type} (as : List A) {f : A → Steps α β}
    (h : ∀ a ∈ as, Keeps n R W (fun _ => True) (f a)) :
    Keeps n R W (fun _ => True) (as.mapM f) := by
  induction as with
  | nil => trivial
  | cons a as ih =>
    rw [List.mapM_cons]
    exact Keeps.bind (h a (by simp)) fun _ _ =>
      Keeps.bind (ih fun a ha => h a (by simp [ha])) fun _ _ => trivial

/-- The window is within what may be accessed. -/
def AllIn (n : Nat) (R : Loc → Prop) (d : Container) : Prop := ∀ q, Holds d q → n ≤ q.buf ∨ R q

theorem keeps_load {p : Loc} (h : n ≤ p.buf ∨ R p) :
    Keeps (α := α) n R W (fun _ => True) (Steps.load p) := ⟨h, fun _ => trivial⟩

theorem keeps_store {p : Loc} (h : n ≤ p.buf ∨ W p) (v : α) :
    Keeps n R W (fun _ => True) (Steps.store p v) := ⟨h, trivial⟩

theorem keeps_container {d : Container} (h : AllIn n R d) (k : Nat) :
    Keeps (α := α) n R W (fun _ => True) (container_get_unchecked d k) := by
  rw [container_get_eq]
  exact Keeps.bind (Keeps.done _ fun p hp => h p (get_unchecked_mut_holds hp)) fun p hp => keeps_load hp

theorem within_fresh {d : Container} (h : n ≤ d.buf) : AllIn n R d := fun _ hq => .inl (hq.1 ▸ h)

section

variable [Target]

theorem keeps_newVector [Zero α] (cfg : Cfg) (k : Nat) :
    Keeps (α := α) n R W (fun d => n ≤ d.buf) (Steps.newVector cfg k) := by
  unfold Steps.newVector
  split
  · exact fun b hb => hb
  · trivial

omit [Target] in
theorem keeps_newArray [Zero α] (k : Nat) :
    Keeps (α := α) n R W (fun d => n ≤ d.buf) (Steps.newArray k) := fun _ hb => hb

theorem keeps_newSlice (cfg : Cfg) (xs : List α) :
    Keeps n R W (fun d => n ≤ d.buf) (Steps.newSlice cfg xs) := by
  unfold Steps.newSlice
  split
  · exact fun b hb => hb
  · trivial

theorem keeps_from_data {cfg : Cfg} {rs cs : SizeId} {d : Container} {l : Layout} (h : n ≤ d.buf) :
    Keeps (α := α) n R W (fun b => n ≤ b.data.buf) (.done (from_data cfg rs cs d l)) :=
  Keeps.done _ fun b hb => by rw [from_data_data hb]; exact h

theorem keeps_zeros [Zero α] (cfg : Cfg) (k : BaseKind) (r c : Nat) :
    Keeps (α := α) n R W (fun b => n ≤ b.data.buf) (Steps.zeros_from_dim cfg k r c) := by
  unfold Steps.zeros_from_dim
  refine Keeps.bind (Keeps.done _ (Q := fun _ => True) fun _ _ => trivial) fun _ _ => ?_
  refine Keeps.bind (Keeps.done _ (Q := fun _ => True) fun _ _ => trivial) fun _ _ => ?_
  refine Keeps.bind (keeps_newVector cfg _) fun d hd => ?_
  exact Keeps.bind (Keeps.done _ (Q := fun _ => True) fun _ _ => trivial) fun _ _ => keeps_from_data hd

theorem keeps_row_length [Zero α] (cfg : Cfg) (k : Nat) :
    Keeps (α := α) n R W (fun b => n ≤ b.data.buf) (Steps.row_zeros_from_length cfg k) :=
  Keeps.bind (keeps_newVector cfg _) fun _ hd => keeps_from_data hd

theorem keeps_col_length [Zero α] (cfg : Cfg) (k : Nat) :
    Keeps (α := α) n R W (fun b => n ≤ b.data.buf) (Steps.col_zeros_from_length cfg k) :=
  Keeps.bind (keeps_newVector cfg _) fun _ hd => keeps_from_data hd

theorem keeps_row_dim [Zero α] (cfg : Cfg) (r c : Nat) :
    Keeps (α := α) n R W (fun b => n ≤ b.data.buf) (Steps.row_zeros_from_dim cfg r c) :=
  Keeps.bind (Keeps.done _ (Q := fun _ => True) fun _ _ => trivial) fun _ _ =>
    Keeps.bind (keeps_newVector cfg _) fun _ hd => keeps_from_data hd

theorem keeps_col_dim [Zero α] (cfg : Cfg) (r c : Nat) :
    Keeps (α := α) n R W (fun b => n ≤ b.data.buf) (Steps.col_zeros_from_dim cfg r c) :=
  Keeps.bind (Keeps.done _ (Q := fun _ => True) fun _ _ => trivial) fun _ _ =>
    Keeps.bind (keeps_newVector cfg _) fun _ hd => keeps_from_data hd

theorem keeps_fixed [Zero α] (cfg : Cfg) (rs cs : SizeId) (k : BaseKind) :
    Keeps (α := α) n R W (fun b => n ≤ b.data.buf) (Steps.fixed_zeros_from_dim cfg rs cs k) :=
  Keeps.bind (keeps_newArray _) fun _ hd =>
    Keeps.bind (Keeps.done _ (Q := fun _ => True) fun _ _ => trivial) fun _ _ => keeps_from_data hd

theorem keeps_fixed_vector [Zero α] (cfg : Cfg) (rs cs : SizeId) (l : Layout) (k : Nat) :
    Keeps (α := α) n R W (fun b => n ≤ b.data.buf) (Steps.fixed_zeros_from_length cfg rs cs l k) :=
  Keeps.bind (keeps_newArray _) fun _ hd => keeps_from_data hd

/-! ### Element by element -/

theorem wrap_le {cfg : Cfg} {v w : Nat} (h : cfg.wrap v = .ok w) : w ≤ v := by
  unfold Cfg.wrap at h
  split at h
  · cases h; exact le_refl _
  · split at h
    · cases h
    · cases h; exact Nat.mod_le _ _

theorem number_of_elements_le {cfg : Cfg} {l : Layout} {k : Nat} (h : l.number_of_elements cfg = .ok k) :
    k ≤ l.dim.1 * l.dim.2 := by
  cases l with
  | rowMajor l => exact wrap_le h
  | columnMajor l => exact wrap_le h
  | asRowMajor l => exact wrap_le h
  | asColumnMajor l => exact wrap_le h
  | rowVector l => cases h; simp [Layout.dim]
  | columnVector l => cases h; simp [Layout.dim]
  | asRowVector l => cases h; simp [Layout.dim]
  | asColumnVector l => cases h; simp [Layout.dim]
  | upperTriangular l =>
    simp only [Layout.number_of_elements, UpperTriangular.number_of_elements, Out.bind_eq_ok] at h
    obtain ⟨a, ha, b, hb, h⟩ := h
    have ha : a ≤ l.dim + 1 := wrap_le ha
    have hb : b ≤ l.dim * a := wrap_le hb
    simp only [udiv, if_neg (show ¬ 2 = 0 by decide)] at h
    cases h
    show b / 2 ≤ l.dim * l.dim
    have := Nat.mul_le_mul_left l.dim ha
    rcases Nat.eq_zero_or_pos l.dim with e | e
    · rw [e] at hb ⊢; omega
    · have := Nat.le_mul_of_pos_left l.dim e
      rw [Nat.mul_add] at *
      omega

variable {mem : Mem α} {dim : Nat × Nat}

theorem InZone.at2 {b : BaseMatrix} (h : InZone n R mem dim (.base b)) {cfg : Cfg} {r c : Nat} {p : Loc}
    (hr : r < dim.1 ∧ c < dim.2) (hp : b.get_unchecked_mut cfg r c = .ok p) : n ≤ p.buf ∨ R p := by
  rcases h with h | ⟨h, ht, rfl, hz⟩
  · refine h p ?_
    simp only [BaseMatrix.get_unchecked_mut, Out.bind_eq_ok] at hp
    obtain ⟨k, -, hp⟩ := hp
    exact get_unchecked_mut_holds hp
  · have hs := (stored_of_notTri ht).2 hr
    rw [h.get_unchecked_mut cfg hs] at hp
    cases hp
    exact .inr (hz r c hs)

omit [Target] in
theorem count_notTri {l : Layout} (h : NotTriangular l) : count l = l.dim.1 * l.dim.2 := by
  cases l with
  | upperTriangular u => exact absurd rfl (h u)
  | _ => simp [count, Layout.dim]

theorem InZone.at1 {b : BaseMatrix} (h : InZone n R mem dim (.base b)) {cfg : Cfg} {k : Nat} {p : Loc}
    (hk : k < dim.1 * dim.2) (hp : b.get1d_unchecked_mut cfg k = .ok p) : n ≤ p.buf ∨ R p := by
  rcases h with h | ⟨h, ht, rfl, hz⟩
  · exact h p (get1d_unchecked_mut_holds hp)
  · obtain ⟨r, c, hs, rfl⟩ := exists_index (l := b.layout) (by rw [count_notTri ht]; exact hk)
    rw [h.get1d_unchecked_mut cfg hs] at hp
    cases hp
    exact .inr (hz r c hs)

theorem InZone.get_mut {b : BaseMatrix} (h : InZone n R mem b.layout.dim (.base b)) {cfg : Cfg}
    {r c : Nat} {p : Loc} (hp : b.get_mut cfg r c = .ok p) : n ≤ p.buf ∨ R p := by
  simp only [BaseMatrix.get_mut, assert_dimension, Out.bind_eq_ok, Out.assert_eq_ok] at hp
  obtain ⟨_, ⟨_, h1, h2⟩, hp⟩ := hp
  exact h.at2 ⟨h1, h2⟩ hp

theorem InZone.get1d_mut {b : BaseMatrix} (h : InZone n R mem b.layout.dim (.base b)) {cfg : Cfg}
    {k : Nat} {p : Loc} (hp : b.get1d_mut cfg k = .ok p) : n ≤ p.buf ∨ R p := by
  simp only [BaseMatrix.get1d_mut, assert_dimension1d, Out.bind_eq_ok, Out.assert_eq_ok] at hp
  obtain ⟨w, hw, _, h1, hp⟩ := hp
  exact h.at1 (lt_of_lt_of_le h1 (number_of_elements_le hw)) hp

theorem base_get_eq (cfg : Cfg) (b : BaseMatrix) (r c : Nat) :
    (base_get_unchecked cfg b r c : Steps α α) = .done (b.get_unchecked_mut cfg r c) >>= load := by
  unfold base_get_unchecked BaseMatrix.get_unchecked_mut
  simp only [container_get_eq]
  cases b.layout.convert_2d_raw cfg r c <;> rfl

theorem base_get1d_eq (cfg : Cfg) (b : BaseMatrix) (k : Nat) :
    (base_get1d_unchecked cfg b k : Steps α α) = .done (b.get1d_unchecked_mut cfg k) >>= load := by
  unfold base_get1d_unchecked BaseMatrix.get1d_unchecked_mut
  simp only [container_get_eq]
  cases b.layout.convert_1d_raw cfg k <;> rfl

theorem keeps_get_unchecked [Add α] [Mul α] (cfg : Cfg) {r c : Nat} (hr : r < dim.1 ∧ c < dim.2)
    {m : Mat α} (h : InZone n R mem dim m) :
    Keeps n R W (fun _ => True) (Steps.get_unchecked cfg r c m) := by
  induction m with
  | base b =>
    rw [Steps.get_unchecked, base_get_eq]
    exact Keeps.bind (Keeps.done _ fun p hp => h.at2 hr hp) fun p hp => keeps_load hp
  | ref m ih => exact ih h
  | addition a b l iha ihb =>
    exact Keeps.bind (iha h.1) fun _ _ => Keeps.bind (ihb h.2) fun _ _ => trivial
  | scalarMult m s ih => exact Keeps.bind (ih h) fun _ _ => trivial

theorem keeps_get1d_unchecked [Add α] [Mul α] (cfg : Cfg) {k : Nat} (hk : k < dim.1 * dim.2) {m : Mat α}
    (h : InZone n R mem dim m) :
    Keeps n R W (fun _ => True) (Steps.get1d_unchecked cfg k m) := by
  induction m with
  | base b =>
    rw [Steps.get1d_unchecked, base_get1d_eq]
    exact Keeps.bind (Keeps.done _ fun p hp => h.at1 hk hp) fun p hp => keeps_load hp
  | ref m ih => exact ih h
  | addition a b l iha ihb =>
    exact Keeps.bind (iha h.1) fun _ _ => Keeps.bind (ihb h.2) fun _ _ => trivial
  | scalarMult m s ih => exact Keeps.bind (ih h) fun _ _ => trivial

theorem keeps_for_each (cfg : Cfg) {b : BaseMatrix} (hr : InZone n R mem b.layout.dim (.base b))
    (hw : InZone n W mem b.layout.dim (.base b)) (f : σ → α → σ × α) (s : σ) :
    Keeps n R W (fun _ => True) (Steps.for_each cfg b f s) := by
  refine Keeps.bind (Keeps.done _ (Q := fun k => k ≤ b.layout.dim.1 * b.layout.dim.2)
    fun _ e => number_of_elements_le e) fun k hk => ?_
  refine Keeps.forRange k trivial fun i st hi _ => ?_
  have hi := lt_of_lt_of_le hi hk
  refine Keeps.bind (Keeps.done _ (Q := fun p => (n ≤ p.buf ∨ R p) ∧ (n ≤ p.buf ∨ W p))
    fun p hp => ⟨hr.at1 hi hp, hw.at1 hi hp⟩) fun p hp => ?_
  exact Keeps.bind (keeps_load hp.1) fun v _ =>
    Keeps.bind (keeps_store hp.2 _) fun _ _ => trivial

theorem keeps_eval [Zero α] [Add α] [Mul α] (cfg : Cfg) {m : Mat α}
    (h : InZone n R mem m.layout.dim m) :
    Keeps n R W (fun b => n ≤ b.data.buf) (Steps.eval cfg m) := by
  refine Keeps.bind (keeps_zeros cfg _ _ _) fun b hb => ?_
  refine Keeps.bind (Keeps.done _ (Q := fun k => k ≤ m.layout.dim.1 * m.layout.dim.2)
    fun _ e => number_of_elements_le e) fun k hk => ?_
  refine Keeps.bind (Keeps.forRange (Q := fun _ => True) k trivial fun i st hi _ => ?_) fun _ _ => hb
  refine Keeps.bind (keeps_get1d_unchecked cfg (lt_of_lt_of_le hi hk) h) fun v _ => ?_
  refine Keeps.bind (Keeps.done _ (Q := Holds b.data) fun p hp => get1d_unchecked_mut_holds hp)
    fun p hp => ?_
  exact keeps_store (within_fresh hb p hp) v

/-! ### Products -/

omit [Target] in
theorem gemmLoc_holds {m k : Nat} {b : BaseMatrix} {rs cs : Int}
    (h : gemmAllValid m k b.get_pointer rs cs) {i j : Nat} (hi : i < m) (hj : j < k) :
    Holds b.data (gemmLoc b.get_pointer rs cs i j) := by
  have := h i hi j hj
  simp only [gemmValid, BaseMatrix.get_pointer, Container.get_pointer] at this
  refine ⟨rfl, ?_, ?_⟩ <;>
    (simp only [gemmLoc, BaseMatrix.get_pointer, Container.get_pointer]; omega)

theorem keeps_matmul {K : GemmArgs α → Steps α Unit} (hK : Orderly K) (alpha beta : α)
    {a b c : BaseMatrix} (ha : AllIn n R a.data) (hb : AllIn n R b.data) (hc : AllIn n R c.data)
    (hw : AllIn n W c.data) : Keeps n R W (fun _ => True) (Steps.matmul K alpha a b beta c) := by
  refine Keeps.bind (Keeps.done _ (Q := fun _ => True) fun _ _ => trivial) fun _ _ => ?_
  refine Keeps.bind (Keeps.done _ (Q := fun _ => True) fun _ _ => trivial) fun _ _ => ?_
  refine Keeps.bind (Keeps.done _ (Q := fun _ => True) fun _ _ => trivial) fun _ _ => ?_
  refine Keeps.bind (Keeps.done _ (Q := fun _ => True) fun _ _ => trivial) fun _ _ => ?_
  unfold Steps.kernel
  split
  · rename_i hp
    refine (hK.places _ hp n).imp ?_ ?_ fun _ e => e
    · rintro q (⟨i, l, hi, hl, rfl⟩ | ⟨l, j, hl, hj, rfl⟩ | ⟨i, j, hi, hj, rfl⟩)
      · exact ha _ (gemmLoc_holds hp.1 hi hl)
      · exact hb _ (gemmLoc_holds hp.2.1 hl hj)
      · exact hc _ (gemmLoc_holds hp.2.2.1 hi hj)
    · rintro q ⟨i, j, hi, hj, rfl⟩
      exact hw _ (gemmLoc_holds hp.2.2.1 hi hj)
  · trivial

theorem keeps_dot [Zero α] [One α] (cfg : Cfg) {K : GemmArgs α → Steps α Unit} (hK : Orderly K)
    (i : DotImpl) {a b : BaseMatrix} (ha : AllIn n R a.data) (hb : AllIn n R b.data) :
    Keeps n R W (fun c => n ≤ c.data.buf) (Steps.dot cfg K i a b) := by
  have rest : ∀ c : BaseMatrix, n ≤ c.data.buf → Keeps n R W (fun c => n ≤ c.data.buf)
      (Steps.matmul K 1 a b 0 c >>= fun _ => (pure c : Steps α BaseMatrix)) := fun c hc =>
    Keeps.bind (keeps_matmul hK 1 0 ha hb (within_fresh hc) (within_fresh hc)) fun _ _ => hc
  cases i
  · exact Keeps.bind (keeps_zeros cfg _ _ _) rest
  · exact Keeps.bind (keeps_row_dim cfg _ _) rest
  · exact Keeps.bind (keeps_col_dim cfg _ _) rest

omit [Target] in
theorem keeps_plainKernel (kern : Kern α) (x : GemmArgs α) : Keeps n
    (fun q => (∃ i l, i < x.m ∧ l < x.k ∧ q = gemmLoc x.a x.rsa x.csa i l) ∨
      (∃ l j, l < x.k ∧ j < x.n ∧ q = gemmLoc x.b x.rsb x.csb l j) ∨
      ∃ i j, i < x.m ∧ j < x.n ∧ q = gemmLoc x.c x.rsc x.csc i j)
    (fun q => ∃ i j, i < x.m ∧ j < x.n ∧ q = gemmLoc x.c x.rsc x.csc i j) (fun _ => True)
    (plainKernel kern x) := by
  refine Keeps.forRange (Q := fun _ => True) _ trivial fun i _ hi _ => ?_
  refine Keeps.forRange (Q := fun _ => True) _ trivial fun j _ hj _ => ?_
  refine Keeps.bind (Keeps.mapM _ fun l hl => ?_) fun ps _ => ?_
  · have hl := List.mem_range.1 hl
    exact Keeps.bind (keeps_load (.inr (.inl ⟨i, l, hi, hl, rfl⟩))) fun _ _ =>
      Keeps.bind (keeps_load (.inr (.inr (.inl ⟨l, j, hl, hj, rfl⟩)))) fun _ _ => trivial
  · exact Keeps.bind (keeps_load (.inr (.inr (.inr ⟨i, j, hi, hj, rfl⟩)))) fun _ _ =>
      keeps_store (.inr ⟨i, j, hi, hj, rfl⟩) _

/-! ### Operations -/

omit [Target] in
theorem keeps_new {Q : Mat α → Prop} (hQ : ∀ b : BaseMatrix, n ≤ b.data.buf → Q (.base b))
    {t : Steps α BaseMatrix} (h : Keeps n R W (fun b => n ≤ b.data.buf) t) :
    Keeps n R W (fun r => ∀ m ∈ r.2, Q m)
      (t >>= fun b => (return (.done, [.base b]) : Steps α (Obs α × List (Mat α)))) :=
  Keeps.bind h fun b hb => by
    intro m hm
    obtain rfl := List.mem_singleton.1 hm
    exact hQ b hb

omit [Target] in
theorem keeps_obs {Q : Mat α → Prop} {t : Steps α β} {f : β → Obs α}
    (h : Keeps n R W (fun _ => True) t) :
    Keeps n R W (fun r => ∀ m ∈ r.2, Q m) (t >>= fun b => return (f b, [])) :=
  Keeps.bind h fun b _ => by
    intro m hm
    cases hm

omit [Target] in
theorem keeps_with {Q : β → Prop} {x : Option γ} {f : γ → Steps α β}
    (h : ∀ m, x = some m → Keeps n R W Q (f m)) : Keeps n R W Q (stepsWith x f) := by
  cases x with
  | none => trivial
  | some m => exact h m rfl

omit [Target] in
theorem baseAt_some {ms : List (Mat α)} {k : Nat} {b : BaseMatrix} (h : baseAt ms k = some b) :
    ms[k]? = some (.base b) := by
  unfold baseAt at h
  split at h
  · cases h; assumption
  · cases h

theorem keeps_element (cfg : Cfg) {b : BaseMatrix} (hr : InZone n R mem b.layout.dim (.base b))
    (op : ArrOp α)
    (hw : (∃ k : Nat, (Op.element k op).writesTo = some k) → InZone n W mem b.layout.dim (.base b)) :
    Keeps n R W (fun _ => True) (elementSteps cfg b op) := by
  cases op with
  | get r c =>
    exact Keeps.bind (Keeps.done _ fun p hp => hr.get_mut hp) fun p hp => ⟨hp, fun _ => trivial⟩
  | get1d k =>
    exact Keeps.bind (Keeps.done _ fun p hp => hr.get1d_mut hp) fun p hp => ⟨hp, fun _ => trivial⟩
  | set r c v =>
    exact Keeps.bind (Keeps.done _ fun p hp => (hw ⟨0, rfl⟩).get_mut hp) fun p hp => ⟨hp, trivial⟩
  | set1d k v =>
    exact Keeps.bind (Keeps.done _ fun p hp => (hw ⟨0, rfl⟩).get1d_mut hp) fun p hp => ⟨hp, trivial⟩
  | update r c f =>
    exact Keeps.bind (Keeps.done _ (Q := fun p => (n ≤ p.buf ∨ R p) ∧ (n ≤ p.buf ∨ W p))
      fun p hp => ⟨hr.get_mut hp, (hw ⟨0, rfl⟩).get_mut hp⟩) fun p hp => ⟨hp.1, fun _ => ⟨hp.2, trivial⟩⟩
  | update1d k f =>
    exact Keeps.bind (Keeps.done _ (Q := fun p => (n ≤ p.buf ∨ R p) ∧ (n ≤ p.buf ∨ W p))
      fun p hp => ⟨hr.get1d_mut hp, (hw ⟨0, rfl⟩).get1d_mut hp⟩)
      fun p hp => ⟨hp.1, fun _ => ⟨hp.2, trivial⟩⟩

omit [Target] in
theorem slice_holds {d w : Container} {i j : Nat} (h : d.get_slice i j = .ok w) {q : Loc}
    (hq : Holds w q) : Holds d q := by
  simp only [Container.get_slice, Container.get_pointer, Container.number_of_elements,
    Out.bind_eq_ok, Out.assert_eq_ok] at h
  obtain ⟨_, h1, _, h2, p, hp, h⟩ := h
  unfold Ptr.add at hp
  unfold Ptr.from_raw_parts at h
  split at hp
  · cases hp
    split at h
    · cases h
      obtain ⟨a, b, c⟩ := hq
      simp only at *
      exact ⟨a, by omega, by omega⟩
    · cases h
  · cases hp

omit [Target] in
theorem slice_mut_holds {d w : Container} {i j : Nat} (h : d.get_slice_mut i j = .ok w) {q : Loc}
    (hq : Holds w q) : Holds d q := by
  simp only [Container.get_slice_mut, Container.get_pointer, Container.number_of_elements,
    Out.bind_eq_ok, Out.assert_eq_ok] at h
  obtain ⟨_, h0, _, h1, _, h2, p, hp, h⟩ := h
  unfold Ptr.add at hp
  unfold Ptr.from_raw_parts at h
  split at hp
  · cases hp
    split at h
    · cases h
      obtain ⟨a, b, c⟩ := hq
      simp only at *
      exact ⟨a, by omega, by omega⟩
    · cases h
  · cases hp

/-- Values that are used in the zone. -/
abbrev Kept (n : Nat) (R : Loc → Prop) (mem : Mem α) (m : Mat α) : Prop := InZone n R mem m.layout.dim m

theorem inZone_of_covers {m : Mat α} (h : ∀ q, Covers m q → n ≤ q.buf ∨ R q) : InZone n R mem dim m := by
  induction m with
  | base b => exact .inl h
  | ref m ih => exact ih h
  | addition a b l iha ihb => exact ⟨iha fun q hq => h q (.inl hq), ihb fun q hq => h q (.inr hq)⟩
  | scalarMult m s ih => exact ih h

/-- Operations access elements of the values they are given, write to elements of the value they
write to, and otherwise use new allocations. Those that do not work element by element access the
windows. -/
theorem op_keeps [Zero α] [One α] [Add α] [Mul α] (cfg : Cfg) {K : GemmArgs α → Steps α Unit}
    (hK : Orderly K) {ms : List (Mat α)} (h : ∀ m ∈ ms, Kept n R mem m) (op : Op α)
    (hr : ∀ k ∈ op.whole, ∀ b, ms[k]? = some (.base b) → AllIn n R b.data)
    (hw : ∀ (k : Nat) b, op.writesTo = some k → ms[k]? = some (.base b) →
      InZone n W mem b.layout.dim (.base b) ∧ (k ∈ op.whole → AllIn n W b.data)) :
    Keeps n R W (fun r => ∀ m ∈ r.2, Kept n R mem m) (op.steps cfg K ms) := by
  have hb : ∀ {k : Nat} {b : BaseMatrix}, baseAt ms k = some b → Kept n R mem (.base b) :=
    fun e => h _ (List.mem_of_getElem? (baseAt_some e))
  have hm : ∀ {k : Nat} {m : Mat α}, ms[k]? = some m → Kept n R mem m :=
    fun e => h _ (List.mem_of_getElem? e)
  have one : ∀ {m : Mat α}, Kept n R mem m →
      ∀ x ∈ ((Obs.done, [m]) : Obs α × List (Mat α)).2, Kept n R mem x := by
    intro m hm x hx
    obtain rfl := List.mem_singleton.1 hx
    exact hm
  have new : ∀ b : BaseMatrix, n ≤ b.data.buf → Kept n R mem (.base b) := fun b hb =>
    .inl (within_fresh (d := b.data) hb)
  cases op with
  | zeros k r c => exact keeps_new new (keeps_zeros cfg k r c)
  | rowZeros k => exact keeps_new new (keeps_row_length cfg k)
  | rowZerosDim r c => exact keeps_new new (keeps_row_dim cfg r c)
  | colZeros k => exact keeps_new new (keeps_col_length cfg k)
  | colZerosDim r c => exact keeps_new new (keeps_col_dim cfg r c)
  | fixedZeros rs cs k =>
    simp only [Op.steps]
    split
    · exact keeps_new new (keeps_fixed cfg rs cs k)
    · trivial
  | fixedVector rs cs k n =>
    simp only [Op.steps]
    split
    · exact keeps_with fun l _ => keeps_new new (keeps_fixed_vector cfg rs cs l _)
    · trivial
  | fromSlice rs cs xs l =>
    exact Keeps.bind (keeps_newSlice cfg xs) fun d hd => keeps_new new (keeps_from_data hd)
  | fromVector rs cs k l =>
    exact Keeps.bind (keeps_newVector cfg k) fun d hd => keeps_new new (keeps_from_data hd)
  | element k e =>
    refine keeps_with fun b e' => keeps_obs (keeps_element cfg (hb e') e ?_)
    rintro ⟨k', h'⟩
    refine (hw k b ?_ (baseAt_some e')).1
    cases e <;> first | rfl | cases h'
  | get k r c =>
    refine keeps_with fun m e => keeps_obs (Keeps.bind (Keeps.done _
      (Q := fun _ => r < m.layout.dim.1 ∧ c < m.layout.dim.2) fun _ ha => ?_) fun _ hd =>
        keeps_get_unchecked cfg hd (hm e))
    simp only [assert_dimension, Out.bind_eq_ok, Out.assert_eq_ok] at ha
    obtain ⟨_, h1, h2⟩ := ha
    exact ⟨h1, h2⟩
  | get1d k i =>
    refine keeps_with fun m e => keeps_obs (Keeps.bind (Keeps.done _
      (Q := fun k => k ≤ m.layout.dim.1 * m.layout.dim.2) fun _ e => number_of_elements_le e)
      fun w hw => Keeps.bind (Keeps.done _ (Q := fun _ => i < w) fun _ ha => ?_) fun _ hi =>
        keeps_get1d_unchecked cfg (lt_of_lt_of_le hi hw) (hm e))
    simpa only [assert_dimension1d, Out.assert_eq_ok] using ha
  | forEach k f =>
    exact keeps_with fun b e => keeps_obs (f := fun _ => .done)
      (keeps_for_each cfg (hb e) (hw k b rfl (baseAt_some e)).1 _ _)
  | fillRand k draw =>
    exact keeps_with fun b e => keeps_obs (f := fun _ => .done)
      (keeps_for_each cfg (hb e) (hw k b rfl (baseAt_some e)).1 _ _)
  | readSlice k i j =>
    refine keeps_with fun b e => Keeps.bind (Keeps.done _ (Q := fun w => AllIn n R w)
      fun w e' q hq => hr k (by simp [Op.whole]) b (baseAt_some e) q (slice_holds e' hq))
      fun w hw => keeps_obs ?_
    exact Keeps.mapM _ fun k _ => keeps_container hw k
  | writeSlice k i j xs =>
    refine keeps_with fun b e => Keeps.bind (Keeps.done _ (Q := fun w => AllIn n W w)
      fun w e' q hq => (hw k b rfl (baseAt_some e)).2 (by simp [Op.whole]) q (slice_mut_holds e' hq))
      fun w hw => keeps_obs (f := fun _ => .done) ?_
    unfold Steps.writeList
    split
    · refine Keeps.forRange (Q := fun _ => True) _ trivial fun i _ _ _ => ?_
      cases xs[i]? with
      | none => trivial
      | some v =>
        exact Keeps.bind (Keeps.done _ fun p hp => hw p (get_unchecked_mut_holds hp)) fun p hp =>
          keeps_store hp v
    · trivial
  | block k tl d =>
    refine keeps_with fun b e => ?_
    split
    · refine Keeps.bind (Keeps.done _ (Q := fun v : BaseMatrix => AllIn n R v.data)
        fun v hv q (hq : Holds v.data q) => hr k (by simp [Op.whole]) b (baseAt_some e) q
          (block_window hv hq)) fun v hv => ?_
      exact one (.inl hv)
    · trivial
  | split k p =>
    refine keeps_with fun b e => ?_
    split
    · refine Keeps.bind (Keeps.done _ (Q := fun v : BaseMatrix × BaseMatrix × BaseMatrix × BaseMatrix =>
        ∀ k, AllIn n R (quad v k).data)
        fun v hv l q (hq : Holds (quad v l).data q) => hr k (by simp [Op.whole]) b (baseAt_some e) q
          (split_window hv l hq)) fun v hv => ?_
      intro m hm
      obtain ⟨k, -, rfl⟩ := List.mem_map.1 hm
      exact .inl (hv k)
    · trivial
  | ref k =>
    refine keeps_with fun m e => one (m := m.from_ref) ?_
    exact (hm e : Kept n R mem m)
  | add r1 r2 h1 h2 =>
    refine keeps_with fun a ea => keeps_with fun b eb => ?_
    split
    · have key : ∀ {a b : Mat α}, Kept n R mem a → Kept n R mem b →
          Keeps (α := α) n R W (Kept n R mem) (.done (a.addition_new b)) := by
        intro a b ha hb
        refine Keeps.done _ fun m e => ?_
        simp only [Mat.addition_new, Out.bind_eq_ok, Out.pure_eq, Out.assert_eq_ok] at e
        obtain ⟨_, hd, e⟩ := e
        cases e
        have hl : (Mat.addition a b a.layout.index_layout).layout.dim = a.layout.dim :=
          index_layout_dim a.layout
        exact ⟨by rw [hl]; exact ha, by rw [hl, hd]; exact hb⟩
      refine Keeps.bind (Q := Kept n R mem) ?_ fun m hm => one hm
      cases r1 <;> cases r2
      · exact key (hm ea) (hm eb)
      · exact key (b := b.from_ref) (hm ea) (show Kept n R mem b from hm eb)
      · exact key (a := a.from_ref) (show Kept n R mem a from hm ea) (hm eb)
      · exact key (a := a.from_ref) (b := b.from_ref) (show Kept n R mem a from hm ea)
          (show Kept n R mem b from hm eb)
    · trivial
  | scale r1 r2 x k =>
    refine keeps_with fun a e => ?_
    have := hm e
    cases r1 <;> cases r2 <;> exact one (by exact this)
  | eval k =>
    refine keeps_with fun m e => ?_
    split
    · exact keeps_new new (keeps_eval cfg (hm e))
    · trivial
  | matmul alpha a b beta c =>
    refine keeps_with fun ma ea => keeps_with fun mb eb => keeps_with fun mc ec => ?_
    split
    · exact keeps_obs (f := fun _ => .done) (keeps_matmul hK alpha beta
        (hr a (by simp [Op.whole]) ma (baseAt_some ea)) (hr b (by simp [Op.whole]) mb (baseAt_some eb))
        (hr c (by simp [Op.whole]) mc (baseAt_some ec))
        ((hw c mc rfl (baseAt_some ec)).2 (by simp [Op.whole])))
    · trivial
  | dot a b =>
    exact keeps_with fun ma ea => keeps_with fun mb eb => keeps_with fun i _ =>
      keeps_new new (keeps_dot cfg hK i (hr a (by simp [Op.whole]) ma (baseAt_some ea))
        (hr b (by simp [Op.whole]) mb (baseAt_some eb)))

/-! ### Running to the end -/

omit [Target] in
theorem Keeps.finish {Q : β → Prop} {t : Steps α β} (h : Keeps n R W Q t) {mem mem' : Mem α}
    {r : Option β} (hn : n ≤ mem.bufs.length) (hf : t.finish mem = some (r, mem')) :
    n ≤ mem'.bufs.length ∧ ∀ b, r = some b → Q b := by
  induction t generalizing mem with
  | done x => cases x with
    | ok b => cases hf; exact ⟨hn, by rintro _ ⟨⟩; exact h⟩
    | panic => cases hf; exact ⟨hn, by rintro _ ⟨⟩⟩
    | ub => cases hf
  | read p k ih =>
    simp only [Steps.finish, Option.bind_eq_some_iff] at hf
    obtain ⟨v, -, hf⟩ := hf
    exact ih v (h.2 v) hn hf
  | write p v k ih =>
    simp only [Steps.finish, Option.bind_eq_some_iff] at hf
    obtain ⟨_, -, hf⟩ := hf
    exact ih h.2 (by simpa using hn) hf
  | alloc xs k ih =>
    simp only [Steps.finish] at hf
    exact ih _ (h _ hn) (by simp; omega) hf

end

/-! ### Where one run reads and writes -/

theorem Stays.imp {R' W' : Loc → Prop} {as : List (Bool × Loc)} (h : Stays n R W as)
    (hR : ∀ q, R q → n ≤ q.buf ∨ R' q) (hW : ∀ q, W q → n ≤ q.buf ∨ W' q) : Stays n R' W' as := by
  rintro ⟨w, q⟩ ha
  rcases h _ ha with h | h
  · exact .inl h
  · cases w with
    | false => exact hR q h
    | true => exact hW q h

theorem Stays.read {mem : Mem α} {p : Loc} {k : α → Steps α β} (h : Stays n R W ((Steps.read p k).accesses mem)) :
    (n ≤ p.buf ∨ R p) ∧ ∀ v, mem.get? p = some v → Stays n R W ((k v).accesses mem) := by
  refine ⟨h (false, p) (by rw [Steps.accesses]; exact List.mem_cons_self ..), fun v hv a ha => h a ?_⟩
  rw [Steps.accesses, hv]
  exact List.mem_cons_of_mem _ ha

theorem Stays.write {mem : Mem α} {p : Loc} {v : α} {k : Steps α β}
    (h : Stays n R W ((Steps.write p v k).accesses mem)) :
    (n ≤ p.buf ∨ W p) ∧ ∀ u, mem.get? p = some u →
      Stays n R W (k.accesses ⟨mem.bufs.modify p.buf (·.set p.idx v)⟩) := by
  refine ⟨h (true, p) (by rw [Steps.accesses]; exact List.mem_cons_self ..), fun u hu a ha => h a ?_⟩
  rw [Steps.accesses, hu]
  exact List.mem_cons_of_mem _ ha

theorem Keeps.stays {Q : β → Prop} {t : Steps α β} (h : Keeps n R W Q t) {mem : Mem α}
    (hn : n ≤ mem.bufs.length) : Stays n R W (t.accesses mem) := by
  induction t generalizing mem with
  | done x => exact fun a ha => (List.not_mem_nil ha).elim
  | read p k ih =>
    intro a ha
    rw [Steps.accesses] at ha
    rcases List.mem_cons.1 ha with rfl | ha
    · exact h.1
    · cases hv : mem.get? p with
      | none => rw [hv] at ha; exact (List.not_mem_nil ha).elim
      | some v => rw [hv] at ha; exact ih v (h.2 v) hn a ha
  | write p v k ih =>
    intro a ha
    rw [Steps.accesses] at ha
    rcases List.mem_cons.1 ha with rfl | ha
    · exact h.1
    · cases hv : mem.get? p with
      | none => rw [hv] at ha; exact (List.not_mem_nil ha).elim
      | some u => rw [hv] at ha; exact ih h.2 (by simpa using hn) a ha
  | alloc xs k ih =>
    rw [Steps.accesses]
    exact ih _ (h _ hn) (by simp; omega)

theorem finish_length {t : Steps α β} {mem mem' : Mem α} {r : Option β}
    (hf : t.finish mem = some (r, mem')) : mem.bufs.length ≤ mem'.bufs.length := by
  induction t generalizing mem with
  | done x => cases x with
    | ok b => cases hf; exact le_refl _
    | panic => cases hf; exact le_refl _
    | ub => cases hf
  | read p k ih =>
    simp only [Steps.finish, Option.bind_eq_some_iff] at hf
    obtain ⟨v, -, hf⟩ := hf
    exact ih v hf
  | write p v k ih =>
    simp only [Steps.finish, Option.bind_eq_some_iff] at hf
    obtain ⟨_, -, hf⟩ := hf
    simpa using ih hf
  | alloc xs k ih =>
    simp only [Steps.finish] at hf
    have := ih _ hf
    simp only [List.length_append, List.length_singleton] at this
    omega

end Householder.Spec
