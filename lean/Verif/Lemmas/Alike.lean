import Verif.Lemmas.Steps
import Verif.Props.Lifetimes

/-!
# Computations that differ in the allocations they work on
-/

namespace Householder

/-- The same window of another allocation. -/
def Container.moved (d : Container) (n : Nat) : Container := { d with buf := n }

/-- The same matrix in another allocation. -/
def BaseMatrix.moved (b : BaseMatrix) (n : Nat) : BaseMatrix := { b with data := b.data.moved n }

/-- The same place of another allocation. -/
def Loc.moved (p : Loc) (n : Nat) : Loc := ⟨n, p.idx⟩

/-- The same pointer into another allocation. -/
def Ptr.moved (p : Ptr) (n : Nat) : Ptr := ⟨p.prov.moved n, p.off⟩

/-- Changing the result of a call. -/
def Out.mapped {β γ : Type} (f : β → γ) (x : Out β) : Out γ := x >>= fun b => .ok (f b)

namespace Spec

open Steps Props

variable {α β γ δ ε σ : Type}

/-- Allocations and their counterparts. -/
abbrev Corr := Nat → Nat → Prop

/-- Matrices that differ in their allocation. -/
def BaseAlike (ρ : Corr) (b b' : BaseMatrix) : Prop :=
  b' = b.moved b'.data.buf ∧ ρ b.data.buf b'.data.buf

/-- Windows that differ in their allocation. -/
def DataAlike (ρ : Corr) (d d' : Container) : Prop := d' = d.moved d'.buf ∧ ρ d.buf d'.buf

/-- Places that differ in their allocation. -/
def LocAlike (ρ : Corr) (p p' : Loc) : Prop := ρ p.buf p'.buf ∧ p.idx = p'.idx

/-- Values that differ in the allocations of the matrices they refer to. -/
def MatAlike (ρ : Corr) : Mat α → Mat α → Prop
  | .base b, .base b' => BaseAlike ρ b b'
  | .ref m, .ref m' => MatAlike ρ m m'
  | .addition a b l, .addition a' b' l' => MatAlike ρ a a' ∧ MatAlike ρ b b' ∧ l = l'
  | .scalarMult m s, .scalarMult m' s' => MatAlike ρ m m' ∧ s = s'
  | _, _ => False

/-- Lists of values that differ in the allocations. -/
abbrev MatsAlike (ρ : Corr) (ms ms' : List (Mat α)) : Prop := List.Forall₂ (MatAlike ρ) ms ms'

/-- The results of operations. -/
def ResultAlike (ρ : Corr) (x y : Obs α × List (Mat α)) : Prop := x.1 = y.1 ∧ MatsAlike ρ x.2 y.2

theorem BaseAlike.mono {ρ ρ' : Corr} (h : ∀ x y, ρ x y → ρ' x y) {b b' : BaseMatrix}
    (hb : BaseAlike ρ b b') : BaseAlike ρ' b b' := ⟨hb.1, h _ _ hb.2⟩

theorem MatAlike.mono {ρ ρ' : Corr} (h : ∀ x y, ρ x y → ρ' x y) {m m' : Mat α}
    (hm : MatAlike ρ m m') : MatAlike ρ' m m' := by
  induction m generalizing m' with
  | base b => cases m' with
    | base b' => exact BaseAlike.mono h hm
    | _ => exact hm
  | ref m ih => cases m' with
    | ref m' => exact ih hm
    | _ => exact hm
  | addition a b l iha ihb => cases m' with
    | addition a' b' l' => exact ⟨iha hm.1, ihb hm.2.1, hm.2.2⟩
    | _ => exact hm
  | scalarMult m s ih => cases m' with
    | scalarMult m' s' => exact ⟨ih hm.1, hm.2⟩
    | _ => exact hm

theorem MatsAlike.mono {ρ ρ' : Corr} (h : ∀ x y, ρ x y → ρ' x y) {ms ms' : List (Mat α)}
    (hm : MatsAlike ρ ms ms') : MatsAlike ρ' ms ms' :=
  List.Forall₂.imp (fun _ _ x => MatAlike.mono h x) hm

theorem MatAlike.layout {ρ : Corr} {m m' : Mat α} (h : MatAlike ρ m m') :
    m'.layout = m.layout ∧ m'.sizes = m.sizes := by
  induction m generalizing m' with
  | base b => cases m' with
    | base b' => constructor <;> (simp only [Mat.layout, Mat.sizes]; rw [h.1]; rfl)
    | _ => exact h.elim
  | ref m ih => cases m' with
    | ref m' => exact ih (m' := m') h
    | _ => exact h.elim
  | addition a b l iha ihb => cases m' with
    | addition a' b' l' => exact ⟨h.2.2.symm, (iha h.1).2⟩
    | _ => exact h.elim
  | scalarMult m s ih => cases m' with
    | scalarMult m' s' => exact ih (m' := m') h.1
    | _ => exact h.elim

/-! ### Sequencing -/

theorem OneToOne.extend {ρ : Corr} (h : OneToOne ρ) {b b' : Nat} (h1 : ∀ x, ¬ ρ b x)
    (h2 : ∀ x, ¬ ρ x b') : OneToOne fun x y => ρ x y ∨ x = b ∧ y = b' := by
  rintro x y x' y' (hx | ⟨rfl, rfl⟩) (hy | ⟨rfl, rfl⟩)
  · exact h _ _ _ _ hx hy
  · exact ⟨fun e => absurd (e ▸ hx) (h1 _), fun e => absurd (e ▸ hx) (h2 _)⟩
  · exact ⟨fun e => absurd (e ▸ hy) (h1 _), fun e => absurd (e ▸ hy) (h2 _)⟩
  · simp

theorem Alike.bind {R : Corr → β → γ → Prop} {S : Corr → δ → ε → Prop} {ρ : Corr}
    {t : Steps α β} {t' : Steps α γ} {f : β → Steps α δ} {f' : γ → Steps α ε} (ho : OneToOne ρ)
    (h : Alike R ρ t t')
    (hf : ∀ ρ' b c, OneToOne ρ' → (∀ x y, ρ x y → ρ' x y) → R ρ' b c → Alike S ρ' (f b) (f' c)) :
    Alike S ρ (t >>= f) (t' >>= f') := by
  induction t generalizing t' ρ with
  | done x => cases t' with
    | done y =>
      cases x <;> cases y <;> simp only [Alike] at h
      · exact hf ρ _ _ ho (fun _ _ e => e) h
      · exact trivial
      · exact trivial
    | _ => simp [Alike] at h
  | read p k ih => cases t' with
    | read p' k' => exact ⟨h.1, h.2.1, fun v => ih v ho (h.2.2 v) hf⟩
    | _ => simp [Alike] at h
  | write p v k ih => cases t' with
    | write p' v' k' => exact ⟨h.1, h.2.1, h.2.2.1, ih ho h.2.2.2 hf⟩
    | _ => simp [Alike] at h
  | alloc xs k ih => cases t' with
    | alloc xs' k' =>
      exact ⟨h.1, fun b b' h1 h2 => ih b (ho.extend h1 h2) (h.2 b b' h1 h2)
        fun ρ' x y o hi r => hf ρ' x y o (fun a c e => hi a c (.inl e)) r⟩
    | _ => simp [Alike] at h

theorem Alike.same {ρ : Corr} (x : Out β) {R : Corr → β → β → Prop} (h : ∀ b, x = .ok b → R ρ b b) :
    Alike (α := α) R ρ (.done x) (.done x) := by
  cases x with
  | ok b => exact h b rfl
  | panic => trivial
  | ub => trivial

theorem Alike.mapped {ρ : Corr} {x : Out β} {y : Out γ} {f : β → γ} {R : Corr → β → γ → Prop}
    (e : y = x.mapped f) (h : ∀ b, x = .ok b → R ρ b (f b)) :
    Alike (α := α) R ρ (.done x) (.done y) := by
  subst e
  cases x with
  | ok b => exact h b rfl
  | panic => trivial
  | ub => trivial

theorem Alike.load {ρ : Corr} {p p' : Loc} (h : LocAlike ρ p p') :
    Alike (α := α) (fun _ => Eq) ρ (Steps.load p) (Steps.load p') :=
  ⟨h.1, h.2, fun _ => rfl⟩

theorem Alike.store {ρ : Corr} {p p' : Loc} (h : LocAlike ρ p p') {v v' : α} (hv : v = v') :
    Alike (fun _ => Eq) ρ (Steps.store p v) (Steps.store p' v') :=
  ⟨h.1, h.2, hv, rfl⟩

theorem Alike.fresh {ρ : Corr} (xs : List α) :
    Alike (fun ρ' => ρ') ρ (Steps.fresh xs) (Steps.fresh xs) :=
  ⟨rfl, fun _ _ _ _ => .inr ⟨rfl, rfl⟩⟩

theorem Alike.forRange {ρ : Corr} {R : Corr → β → γ → Prop} (ho : OneToOne ρ) (n : Nat)
    {f : Nat → β → Steps α β} {f' : Nat → γ → Steps α γ} {s : β} {s' : γ} (hs : R ρ s s')
    (h : ∀ ρ' i b c, OneToOne ρ' → (∀ x y, ρ x y → ρ' x y) → i < n → R ρ' b c →
      Alike R ρ' (f i b) (f' i c)) :
    Alike R ρ (Steps.forRange n f s) (Steps.forRange n f' s') := by
  induction n with
  | zero => exact hs
  | succ n ih =>
    rw [Steps.forRange_succ, Steps.forRange_succ]
    refine Alike.bind ho (ih fun ρ' i b c o hi hn r => h ρ' i b c o hi (by omega) r) ?_
    exact fun ρ' b c o hi r => h ρ' n b c o hi (by omega) r

theorem Alike.mapM {A : Type} {ρ : Corr} (ho : OneToOne ρ) (as : List A) {f f' : A → Steps α β}
    (h : ∀ ρ' a, OneToOne ρ' → (∀ x y, ρ x y → ρ' x y) → Alike (fun _ => Eq) ρ' (f a) (f' a)) :
    Alike (fun _ => Eq) ρ (as.mapM f) (as.mapM f') := by
  induction as generalizing ρ with
  | nil => exact rfl
  | cons a as ih =>
    rw [List.mapM_cons, List.mapM_cons]
    refine Alike.bind ho (h ρ a ho fun _ _ e => e) ?_
    rintro ρ1 b _ o1 i1 rfl
    refine Alike.bind o1 (ih o1 fun ρ' a o i => h ρ' a o fun x y e => i x y (i1 x y e)) ?_
    rintro ρ2 b _ o2 i2 rfl
    exact rfl

/-! ### Computations without accesses to memory -/

theorem moved_get_unchecked_mut (d : Container) (n k : Nat) :
    (d.moved n).get_unchecked_mut k = (d.get_unchecked_mut k).mapped (·.moved n) := by
  unfold Container.get_unchecked_mut
  show (if k < d.len then _ else _) = _
  split <;> rfl

theorem moved_from_data [Target] (cfg : Cfg) (rs cs : SizeId) (d : Container) (n : Nat) (l : Layout) :
    from_data cfg rs cs (d.moved n) l = (from_data cfg rs cs d l).mapped (·.moved n) := by
  simp only [from_data, BaseMatrix.new, Out.mapped, Out.bind_assoc']
  rfl

theorem moved_raw_parts (p : Ptr) (n k : Nat) :
    (p.moved n).from_raw_parts k = (p.from_raw_parts k).mapped (·.moved n) := by
  unfold Ptr.from_raw_parts
  show (if p.off + k ≤ p.prov.len then _ else _) = _
  split <;> rfl

theorem moved_add (p : Ptr) (n k : Nat) : (p.moved n).add k = (p.add k).mapped (·.moved n) := by
  unfold Ptr.add
  show (if p.off + k ≤ p.prov.len then _ else _) = _
  split <;> rfl

theorem moved_offset (p : Ptr) (n : Nat) (k : Int) :
    (p.moved n).offset k = (p.offset k).mapped (·.moved n) := by
  unfold Ptr.offset
  show (if 0 ≤ (p.off : Int) + k ∧ (p.off : Int) + k ≤ p.prov.len then _ else _) = _
  split <;> rfl

theorem bind_mapped (x : Out β) (f : β → γ) (g : γ → Out δ) :
    (x.mapped f >>= g) = x >>= fun b => g (f b) := by
  cases x <;> rfl

theorem mapped_bind (x : Out β) (g : β → Out γ) (f : γ → δ) :
    (x >>= g).mapped f = x >>= fun b => (g b).mapped f := by
  cases x <;> rfl

theorem moved_strided [Target] (cfg : Cfg) (p : Ptr) (n : Nat) (d : Nat × Nat) (l : Layout) :
    from_pointer_strided cfg (p.moved n) d l = (from_pointer_strided cfg p d l).mapped (·.moved n) := by
  simp only [from_pointer_strided, moved_raw_parts, bind_mapped, mapped_bind, moved_from_data]

theorem moved_block [Target] (cfg : Cfg) (b : BaseMatrix) (n : Nat) (tl d : Nat × Nat) :
    (b.moved n).block cfg tl d = (b.block cfg tl d).mapped (·.moved n) := by
  have hp : (b.moved n).get_pointer = b.get_pointer.moved n := rfl
  have hl : (b.moved n).layout = b.layout := rfl
  simp only [BaseMatrix.block, hp, hl, moved_add, bind_mapped, mapped_bind]
  congr 1; funext _; congr 1; funext _; congr 1; funext _; congr 1; funext _; congr 1; funext p
  congr 1; funext s
  cases BaseMatrix.strideLayout b.layout d s with
  | none => rfl
  | some l => exact moved_strided cfg p n d l

/-- All four parts in another allocation. -/
def movedFour (n : Nat) (q : BaseMatrix × BaseMatrix × BaseMatrix × BaseMatrix) :
    BaseMatrix × BaseMatrix × BaseMatrix × BaseMatrix :=
  (q.1.moved n, q.2.1.moved n, q.2.2.1.moved n, q.2.2.2.moved n)

theorem moved_split [Target] (cfg : Cfg) (b : BaseMatrix) (n : Nat) (s : Nat × Nat) :
    (b.moved n).split_in_four_mut cfg s = (b.split_in_four_mut cfg s).mapped (movedFour n) := by
  have hp : (b.moved n).get_pointer = b.get_pointer.moved n := rfl
  have hl : (b.moved n).layout = b.layout := rfl
  unfold BaseMatrix.split_in_four_mut
  rw [hl]
  split
  · simp only [hp, moved_offset, moved_strided, bind_mapped, mapped_bind]
    rfl
  · rfl

theorem moved_slice (d : Container) (n i j : Nat) :
    (d.moved n).get_slice i j = (d.get_slice i j).mapped (·.moved n) := by
  have hp : (d.moved n).get_pointer = d.get_pointer.moved n := rfl
  simp only [Container.get_slice, hp, moved_add, moved_raw_parts, bind_mapped, mapped_bind]
  rfl

theorem moved_slice_mut (d : Container) (n i j : Nat) :
    (d.moved n).get_slice_mut i j = (d.get_slice_mut i j).mapped (·.moved n) := by
  have hp : (d.moved n).get_pointer = d.get_pointer.moved n := rfl
  simp only [Container.get_slice_mut, hp, moved_add, moved_raw_parts, bind_mapped, mapped_bind]
  rfl

theorem slice_buf {d w : Container} {i j : Nat} (h : d.get_slice i j = .ok w) : w.buf = d.buf := by
  simp only [Container.get_slice, Out.bind_eq_ok, Out.assert_eq_ok] at h
  obtain ⟨_, -, _, -, p, hp, h⟩ := h
  unfold Ptr.add at hp
  unfold Ptr.from_raw_parts at h
  split at hp
  · cases hp
    split at h
    · cases h; rfl
    · cases h
  · cases hp

theorem slice_mut_buf {d w : Container} {i j : Nat} (h : d.get_slice_mut i j = .ok w) :
    w.buf = d.buf := by
  simp only [Container.get_slice_mut, Out.bind_eq_ok, Out.assert_eq_ok] at h
  obtain ⟨_, -, _, -, _, -, p, hp, h⟩ := h
  unfold Ptr.add at hp
  unfold Ptr.from_raw_parts at h
  split at hp
  · cases hp
    split at h
    · cases h; rfl
    · cases h
  · cases hp

section

variable [Target]

omit [Target] in
theorem alike_place {ρ : Corr} {d d' : Container} (h : DataAlike ρ d d') (k : Nat) :
    Alike (α := α) LocAlike ρ (.done (d.get_unchecked_mut k)) (.done (d'.get_unchecked_mut k)) := by
  refine Alike.mapped (f := (·.moved d'.buf)) (by rw [← moved_get_unchecked_mut, ← h.1]) fun p hp => ?_
  have := (get_unchecked_mut_holds hp).1
  exact ⟨this ▸ h.2, rfl⟩

omit [Target] in
theorem BaseAlike.data {ρ : Corr} {b b' : BaseMatrix} (h : BaseAlike ρ b b') :
    DataAlike ρ b.data b'.data := ⟨congrArg BaseMatrix.data h.1, h.2⟩

omit [Target] in
theorem BaseAlike.layout {ρ : Corr} {b b' : BaseMatrix} (h : BaseAlike ρ b b') :
    b'.layout = b.layout := by rw [h.1]; rfl

theorem alike_from_data {ρ : Corr} (cfg : Cfg) (rs cs : SizeId) {d d' : Container}
    (h : DataAlike ρ d d') (l : Layout) :
    Alike (α := α) BaseAlike ρ (.done (from_data cfg rs cs d l)) (.done (from_data cfg rs cs d' l)) := by
  refine Alike.mapped (f := (·.moved d'.buf)) (by rw [← moved_from_data, ← h.1]) fun b hb => ?_
  refine ⟨rfl, ?_⟩
  rw [from_data_data hb]
  exact h.2

theorem alike_get_mut {ρ : Corr} (cfg : Cfg) {b b' : BaseMatrix} (h : BaseAlike ρ b b') (r c : Nat) :
    Alike (α := α) LocAlike ρ (.done (b.get_mut cfg r c)) (.done (b'.get_mut cfg r c)) := by
  refine Alike.mapped (f := (·.moved b'.data.buf)) ?_ fun p hp => ⟨(get_mut_holds hp).1 ▸ h.2, rfl⟩
  simp only [BaseMatrix.get_mut, BaseMatrix.get_unchecked_mut, h.layout, mapped_bind,
    ← moved_get_unchecked_mut, ← h.data.1]

theorem alike_get1d_unchecked_mut {ρ : Corr} (cfg : Cfg) {b b' : BaseMatrix} (h : BaseAlike ρ b b')
    (k : Nat) : Alike (α := α) LocAlike ρ (.done (b.get1d_unchecked_mut cfg k))
      (.done (b'.get1d_unchecked_mut cfg k)) := by
  refine Alike.mapped (f := (·.moved b'.data.buf)) ?_
    fun p hp => ⟨(get1d_unchecked_mut_holds hp).1 ▸ h.2, rfl⟩
  simp only [BaseMatrix.get1d_unchecked_mut, h.layout, mapped_bind, ← moved_get_unchecked_mut,
    ← h.data.1]

theorem alike_get1d_mut {ρ : Corr} (cfg : Cfg) {b b' : BaseMatrix} (h : BaseAlike ρ b b')
    (k : Nat) : Alike (α := α) LocAlike ρ (.done (b.get1d_mut cfg k)) (.done (b'.get1d_mut cfg k)) := by
  refine Alike.mapped (f := (·.moved b'.data.buf)) ?_ fun p hp => ⟨(get1d_mut_holds hp).1 ▸ h.2, rfl⟩
  simp only [BaseMatrix.get1d_mut, BaseMatrix.get1d_unchecked_mut, h.layout, mapped_bind,
    ← moved_get_unchecked_mut, ← h.data.1]

omit [Target] in
theorem alike_container_get {ρ : Corr} (ho : OneToOne ρ) {d d' : Container} (h : DataAlike ρ d d')
    (k : Nat) : Alike (α := α) (fun _ => Eq) ρ (container_get_unchecked d k)
      (container_get_unchecked d' k) := by
  rw [container_get_eq, container_get_eq]
  exact Alike.bind ho (alike_place h k) fun _ _ _ _ _ hp => Alike.load hp

theorem alike_get_unchecked [Add α] [Mul α] {ρ : Corr} (ho : OneToOne ρ) (cfg : Cfg) (r c : Nat)
    {m m' : Mat α} (h : MatAlike ρ m m') :
    Alike (fun _ => Eq) ρ (Steps.get_unchecked cfg r c m) (Steps.get_unchecked cfg r c m') := by
  induction m generalizing m' ρ with
  | base b => cases m' with
    | base b' =>
      have hb : BaseAlike ρ b b' := h
      simp only [Steps.get_unchecked, base_get_unchecked, hb.layout]
      refine Alike.bind ho (Alike.same (R := fun _ => Eq) _ fun _ _ => rfl) ?_
      rintro ρ' k _ o i rfl
      exact alike_container_get o (BaseAlike.mono i hb).data k
    | _ => exact h.elim
  | ref m ih => cases m' with
    | ref m' => exact ih (m' := m') ho h
    | _ => exact h.elim
  | addition a b l iha ihb => cases m' with
    | addition a' b' l' =>
      refine Alike.bind ho (iha ho h.1) ?_
      rintro ρ1 x _ o1 i1 rfl
      refine Alike.bind o1 (ihb o1 (h.2.1.mono i1)) ?_
      rintro ρ2 y _ o2 i2 rfl
      exact rfl
    | _ => exact h.elim
  | scalarMult m s ih => cases m' with
    | scalarMult m' s' =>
      refine Alike.bind ho (ih ho h.1) ?_
      rintro ρ1 x _ o1 i1 rfl
      obtain ⟨-, rfl⟩ := h
      exact rfl
    | _ => exact h.elim

theorem alike_get1d_unchecked [Add α] [Mul α] {ρ : Corr} (ho : OneToOne ρ) (cfg : Cfg) (k : Nat)
    {m m' : Mat α} (h : MatAlike ρ m m') :
    Alike (fun _ => Eq) ρ (Steps.get1d_unchecked cfg k m) (Steps.get1d_unchecked cfg k m') := by
  induction m generalizing m' ρ with
  | base b => cases m' with
    | base b' =>
      have hb : BaseAlike ρ b b' := h
      simp only [Steps.get1d_unchecked, base_get1d_unchecked, hb.layout]
      refine Alike.bind ho (Alike.same (R := fun _ => Eq) _ fun _ _ => rfl) ?_
      rintro ρ' k _ o i rfl
      exact alike_container_get o (BaseAlike.mono i hb).data k
    | _ => exact h.elim
  | ref m ih => cases m' with
    | ref m' => exact ih (m' := m') ho h
    | _ => exact h.elim
  | addition a b l iha ihb => cases m' with
    | addition a' b' l' =>
      refine Alike.bind ho (iha ho h.1) ?_
      rintro ρ1 x _ o1 i1 rfl
      refine Alike.bind o1 (ihb o1 (h.2.1.mono i1)) ?_
      rintro ρ2 y _ o2 i2 rfl
      exact rfl
    | _ => exact h.elim
  | scalarMult m s ih => cases m' with
    | scalarMult m' s' =>
      refine Alike.bind ho (ih ho h.1) ?_
      rintro ρ1 x _ o1 i1 rfl
      obtain ⟨-, rfl⟩ := h
      exact rfl
    | _ => exact h.elim

theorem alike_for_each {ρ : Corr} (ho : OneToOne ρ) (cfg : Cfg) {b b' : BaseMatrix}
    (h : BaseAlike ρ b b') (f : σ → α → σ × α) (s : σ) :
    Alike (fun _ => Eq) ρ (Steps.for_each cfg b f s) (Steps.for_each cfg b' f s) := by
  simp only [Steps.for_each, h.layout]
  refine Alike.bind ho (Alike.same (R := fun _ => Eq) _ fun _ _ => rfl) ?_
  rintro ρ1 n _ o1 i1 rfl
  refine Alike.forRange (R := fun _ => Eq) o1 n rfl ?_
  rintro ρ2 i st _ o2 i2 - rfl
  refine Alike.bind o2 (alike_get1d_unchecked_mut cfg
    (BaseAlike.mono (fun x y e => i2 x y (i1 x y e)) h) i) ?_
  intro ρ3 p p' o3 i3 hp
  refine Alike.bind o3 (Alike.load hp) ?_
  rintro ρ4 v _ o4 i4 rfl
  refine Alike.bind o4 (Alike.store ⟨i4 _ _ hp.1, hp.2⟩ rfl) ?_
  rintro ρ5 _ _ o5 i5 -
  exact rfl

theorem alike_newVector [Zero α] {ρ : Corr} (ho : OneToOne ρ) (cfg : Cfg) (n : Nat) :
    Alike (α := α) DataAlike ρ (Steps.newVector cfg n) (Steps.newVector cfg n) := by
  unfold Steps.newVector
  split
  · exact Alike.bind ho (Alike.fresh _) fun _ _ _ _ _ h => ⟨rfl, h⟩
  · trivial

omit [Target] in
theorem alike_newArray [Zero α] {ρ : Corr} (ho : OneToOne ρ) (n : Nat) :
    Alike (α := α) DataAlike ρ (Steps.newArray n) (Steps.newArray n) :=
  Alike.bind ho (Alike.fresh _) fun _ _ _ _ _ h => ⟨rfl, h⟩

theorem alike_newSlice {ρ : Corr} (ho : OneToOne ρ) (cfg : Cfg) (xs : List α) :
    Alike DataAlike ρ (Steps.newSlice cfg xs) (Steps.newSlice cfg xs) := by
  unfold Steps.newSlice
  split
  · exact Alike.bind ho (Alike.fresh _) fun _ _ _ _ _ h => ⟨rfl, h⟩
  · trivial

theorem alike_zeros [Zero α] {ρ : Corr} (ho : OneToOne ρ) (cfg : Cfg) (k : BaseKind) (r c : Nat) :
    Alike (α := α) BaseAlike ρ (Steps.zeros_from_dim cfg k r c) (Steps.zeros_from_dim cfg k r c) := by
  refine Alike.bind ho (Alike.same (R := fun _ => Eq) _ fun _ _ => rfl) ?_
  rintro ρ1 l _ o1 - rfl
  refine Alike.bind o1 (Alike.same (R := fun _ => Eq) _ fun _ _ => rfl) ?_
  rintro ρ2 n _ o2 - rfl
  refine Alike.bind o2 (alike_newVector o2 cfg n) ?_
  intro ρ3 d d' o3 _ hd
  refine Alike.bind o3 (Alike.same (R := fun _ => Eq) _ fun _ _ => rfl) ?_
  rintro ρ4 l _ o4 i4 rfl
  exact alike_from_data cfg _ _ ⟨hd.1, i4 _ _ hd.2⟩ l

theorem alike_row_length [Zero α] {ρ : Corr} (ho : OneToOne ρ) (cfg : Cfg) (n : Nat) :
    Alike (α := α) BaseAlike ρ (Steps.row_zeros_from_length cfg n)
      (Steps.row_zeros_from_length cfg n) :=
  Alike.bind ho (alike_newVector ho cfg n) fun _ _ _ _ _ hd => alike_from_data cfg _ _ hd _

theorem alike_col_length [Zero α] {ρ : Corr} (ho : OneToOne ρ) (cfg : Cfg) (n : Nat) :
    Alike (α := α) BaseAlike ρ (Steps.col_zeros_from_length cfg n)
      (Steps.col_zeros_from_length cfg n) :=
  Alike.bind ho (alike_newVector ho cfg n) fun _ _ _ _ _ hd => alike_from_data cfg _ _ hd _

theorem alike_row_dim [Zero α] {ρ : Corr} (ho : OneToOne ρ) (cfg : Cfg) (r c : Nat) :
    Alike (α := α) BaseAlike ρ (Steps.row_zeros_from_dim cfg r c)
      (Steps.row_zeros_from_dim cfg r c) :=
  Alike.bind ho (Alike.same (R := fun _ => Eq) _ fun _ _ => rfl) fun _ _ _ o _ _ =>
    Alike.bind o (alike_newVector o cfg c) fun _ _ _ _ _ hd => alike_from_data cfg _ _ hd _

theorem alike_col_dim [Zero α] {ρ : Corr} (ho : OneToOne ρ) (cfg : Cfg) (r c : Nat) :
    Alike (α := α) BaseAlike ρ (Steps.col_zeros_from_dim cfg r c)
      (Steps.col_zeros_from_dim cfg r c) :=
  Alike.bind ho (Alike.same (R := fun _ => Eq) _ fun _ _ => rfl) fun _ _ _ o _ _ =>
    Alike.bind o (alike_newVector o cfg r) fun _ _ _ _ _ hd => alike_from_data cfg _ _ hd _

theorem alike_fixed [Zero α] {ρ : Corr} (ho : OneToOne ρ) (cfg : Cfg) (rs cs : SizeId) (k : BaseKind) :
    Alike (α := α) BaseAlike ρ (Steps.fixed_zeros_from_dim cfg rs cs k)
      (Steps.fixed_zeros_from_dim cfg rs cs k) := by
  refine Alike.bind ho (alike_newArray ho _) ?_
  intro ρ1 d d' o1 _ hd
  refine Alike.bind o1 (Alike.same (R := fun _ => Eq) _ fun _ _ => rfl) ?_
  rintro ρ2 l _ o2 i2 rfl
  exact alike_from_data cfg _ _ ⟨hd.1, i2 _ _ hd.2⟩ l

theorem alike_fixed_vector [Zero α] {ρ : Corr} (ho : OneToOne ρ) (cfg : Cfg) (rs cs : SizeId)
    (l : Layout) (n : Nat) :
    Alike (α := α) BaseAlike ρ (Steps.fixed_zeros_from_length cfg rs cs l n)
      (Steps.fixed_zeros_from_length cfg rs cs l n) :=
  Alike.bind ho (alike_newArray ho n) fun _ _ _ _ _ hd => alike_from_data cfg _ _ hd _

theorem alike_eval [Zero α] [Add α] [Mul α] {ρ : Corr} (ho : OneToOne ρ) (cfg : Cfg)
    {m m' : Mat α} (h : MatAlike ρ m m') :
    Alike BaseAlike ρ (Steps.eval cfg m) (Steps.eval cfg m') := by
  simp only [Steps.eval, h.layout.1]
  refine Alike.bind ho (alike_zeros ho cfg _ _ _) ?_
  intro ρ1 b b' o1 i1 hb
  refine Alike.bind o1 (Alike.same (R := fun _ => Eq) _ fun _ _ => rfl) ?_
  rintro ρ2 n _ o2 i2 rfl
  refine Alike.bind (R := fun ρ _ _ => BaseAlike ρ b b') o2 (Alike.forRange
    (R := fun ρ _ _ => BaseAlike ρ b b') o2 n (hb.mono i2) ?_) fun _ _ _ _ _ e => e
  intro ρ3 i _ _ o3 i3 _ hb3
  refine Alike.bind o3 (alike_get1d_unchecked o3 cfg i
    (h.mono fun x y e => i3 x y (i2 x y (i1 x y e)))) ?_
  rintro ρ4 v _ o4 i4 rfl
  refine Alike.bind o4 (alike_get1d_unchecked_mut cfg (hb3.mono i4) i) ?_
  intro ρ5 p p' o5 i5 hp
  exact ⟨hp.1, hp.2, rfl, hb3.mono fun x y e => i5 x y (i4 x y e)⟩

/-! ### Products -/

omit [Target] in
theorem gemmAddr_alike {ρ : Corr} {p p' : Ptr} (h : PtrAlike ρ p p') (r c : Int) (i j : Nat) :
    gemmAddr p' r c i j = gemmAddr p r c i j := by
  simp only [gemmAddr, h.2.2.2]

omit [Target] in
theorem gemmLoc_alike {ρ : Corr} {p p' : Ptr} (h : PtrAlike ρ p p') (r c : Int) (i j : Nat) :
    LocAlike ρ (gemmLoc p r c i j) (gemmLoc p' r c i j) :=
  ⟨h.1, by simp only [gemmLoc, gemmAddr_alike h, h.2.1]⟩

omit [Target] in
theorem LocAlike.eq_iff {ρ : Corr} (ho : OneToOne ρ) {p p' q q' : Loc} (hp : LocAlike ρ p p')
    (hq : LocAlike ρ q q') : p = q ↔ p' = q' := by
  have := ho _ _ _ _ hp.1 hq.1
  rw [Loc.mk.injEq p.buf p.idx q.buf q.idx, Loc.mk.injEq p'.buf p'.idx q'.buf q'.idx, this, hp.2, hq.2]

omit [Target] in
theorem pre_alike {ρ : Corr} (ho : OneToOne ρ) {x y : GemmArgs α} (h : ArgsAlike ρ x y) :
    x.Pre ↔ y.Pre := by
  obtain ⟨ha, hb, hc, e⟩ := h
  have hv : ∀ {p p' : Ptr}, PtrAlike ρ p p' → ∀ m n r c,
      (gemmAllValid m n p r c ↔ gemmAllValid m n p' r c) := by
    intro p p' h m n r c
    simp only [gemmAllValid, gemmValid, gemmAddr_alike h, h.2.2.1]
  have hn : ∀ {p p' : Ptr}, PtrAlike ρ p p' → ∀ m n r c,
      (gemmNoAlias m n p r c ↔ gemmNoAlias m n p' r c) := by
    intro p p' h m n r c
    simp only [gemmNoAlias, fun i j i' j' =>
      (gemmLoc_alike h r c i j).eq_iff ho (gemmLoc_alike h r c i' j')]
  have hd : ∀ {p p' q q' : Ptr}, PtrAlike ρ p p' → PtrAlike ρ q q' → ∀ m n r c m' n' r' c',
      (gemmDisjoint m n p r c m' n' q r' c' ↔ gemmDisjoint m n p' r c m' n' q' r' c') := by
    intro p p' q q' h h' m n r c m' n' r' c'
    simp only [gemmDisjoint, ne_eq, fun i j i' j' =>
      (gemmLoc_alike h r c i j).eq_iff ho (gemmLoc_alike h' r' c' i' j')]
  rw [e]
  simp only [GemmArgs.Pre, gemmPre]
  rw [hv ha, hv hb, hv hc, hn hc, hd hc ha, hd hc hb]

omit [Target] in
theorem alike_plainKernel (kern : Kern α) {ρ : Corr} (ho : OneToOne ρ) {x y : GemmArgs α}
    (h : ArgsAlike ρ x y) :
    Alike (fun _ _ _ => True) ρ (plainKernel kern x) (plainKernel kern y) := by
  obtain ⟨ha, hb, hc, e⟩ := h
  have up : ∀ {ρ' : Corr} {p p' : Ptr}, (∀ u v, ρ u v → ρ' u v) → PtrAlike ρ p p' →
      PtrAlike ρ' p p' := fun i h => ⟨i _ _ h.1, h.2⟩
  rw [e]
  refine Alike.forRange (R := fun _ _ _ => True) ho _ trivial ?_
  intro ρ1 i _ _ o1 i1 _ _
  refine Alike.forRange (R := fun _ _ _ => True) o1 _ trivial ?_
  intro ρ2 j _ _ o2 i2 _ _
  have i12 : ∀ u v, ρ u v → ρ2 u v := fun u v e => i2 u v (i1 u v e)
  refine Alike.bind o2 (Alike.mapM o2 _ (fun ρ3 l o3 i3 => ?_)) ?_
  · have i13 : ∀ u v, ρ u v → ρ3 u v := fun u v e => i3 u v (i12 u v e)
    refine Alike.bind o3 (Alike.load (gemmLoc_alike (up i13 ha) _ _ i l)) ?_
    rintro ρ4 u _ o4 i4 rfl
    refine Alike.bind o4 (Alike.load (gemmLoc_alike (up (fun u v e => i4 u v (i13 u v e)) hb) _ _ l j)) ?_
    rintro ρ5 v _ o5 i5 rfl
    exact rfl
  · rintro ρ3 ps _ o3 i3 rfl
    have i13 : ∀ u v, ρ u v → ρ3 u v := fun u v e => i3 u v (i12 u v e)
    refine Alike.bind o3 (Alike.load (gemmLoc_alike (up i13 hc) _ _ i j)) ?_
    rintro ρ4 u _ o4 i4 rfl
    have hl := gemmLoc_alike (up (fun u v e => i4 u v (i13 u v e)) hc) x.rsc x.csc i j
    exact ⟨hl.1, hl.2, rfl, trivial⟩

omit [Target] in
theorem alike_kernel {K : GemmArgs α → Steps α Unit} (hK : Orderly K) {ρ : Corr} (ho : OneToOne ρ)
    {x y : GemmArgs α} (h : ArgsAlike ρ x y) :
    Alike (fun _ _ _ => True) ρ (kernel K x) (kernel K y) := by
  unfold kernel
  by_cases hp : x.Pre
  · rw [if_pos hp, if_pos ((pre_alike ho h).1 hp)]
    exact hK.alike ρ x y ho hp h
  · rw [if_neg hp, if_neg fun e => hp ((pre_alike ho h).2 e)]
    trivial

omit [Target] in
theorem BaseAlike.pointer {ρ : Corr} {b b' : BaseMatrix} (h : BaseAlike ρ b b') :
    PtrAlike ρ b.get_pointer b'.get_pointer := by
  have := h.data.1
  refine ⟨h.2, ?_, ?_, rfl⟩ <;>
  · simp only [BaseMatrix.get_pointer, Container.get_pointer]
    rw [this]; rfl

theorem alike_matmul {K : GemmArgs α → Steps α Unit} (hK : Orderly K) {ρ : Corr} (ho : OneToOne ρ)
    (alpha beta : α) {a a' b b' c c' : BaseMatrix} (ha : BaseAlike ρ a a') (hb : BaseAlike ρ b b')
    (hc : BaseAlike ρ c c') :
    Alike (fun _ _ _ => True) ρ (Steps.matmul K alpha a b beta c)
      (Steps.matmul K alpha a' b' beta c') := by
  simp only [Steps.matmul, ha.layout, hb.layout, hc.layout]
  refine Alike.bind ho (Alike.same (R := fun _ => Eq) _ fun _ _ => rfl) ?_
  rintro ρ1 _ _ o1 i1 -
  refine Alike.bind o1 (Alike.same (R := fun _ => Eq) _ fun _ _ => rfl) ?_
  rintro ρ2 sa _ o2 i2 rfl
  refine Alike.bind o2 (Alike.same (R := fun _ => Eq) _ fun _ _ => rfl) ?_
  rintro ρ3 sb _ o3 i3 rfl
  refine Alike.bind o3 (Alike.same (R := fun _ => Eq) _ fun _ _ => rfl) ?_
  rintro ρ4 sc _ o4 i4 rfl
  have up : ∀ u v, ρ u v → ρ4 u v := fun u v e => i4 _ _ (i3 _ _ (i2 _ _ (i1 _ _ e)))
  exact alike_kernel hK o4 ⟨(ha.mono up).pointer, (hb.mono up).pointer, (hc.mono up).pointer, rfl⟩

theorem alike_dot [Zero α] [One α] (cfg : Cfg) {K : GemmArgs α → Steps α Unit} (hK : Orderly K)
    {ρ : Corr} (ho : OneToOne ρ) (i : DotImpl) {a a' b b' : BaseMatrix} (ha : BaseAlike ρ a a')
    (hb : BaseAlike ρ b b') :
    Alike BaseAlike ρ (Steps.dot cfg K i a b) (Steps.dot cfg K i a' b') := by
  have rest : ∀ ρ1 c c', OneToOne ρ1 → (∀ x y, ρ x y → ρ1 x y) → BaseAlike ρ1 c c' →
      Alike BaseAlike ρ1 (Steps.matmul K 1 a b 0 c >>= fun _ => pure c)
        (Steps.matmul K 1 a' b' 0 c' >>= fun _ => pure c') := by
    intro ρ1 c c' o1 i1 hc
    refine Alike.bind o1 (alike_matmul hK o1 1 0 (ha.mono i1) (hb.mono i1) hc) ?_
    intro ρ2 _ _ o2 i2 _
    exact hc.mono i2
  simp only [Steps.dot, ha.layout, hb.layout]
  cases i
  · exact Alike.bind ho (alike_zeros ho cfg _ _ _) rest
  · exact Alike.bind ho (alike_row_dim ho cfg _ _) rest
  · exact Alike.bind ho (alike_col_dim ho cfg _ _) rest

/-! ### Operations -/

/-- Corresponding positions of corresponding lists. -/
inductive AtAlike (ρ : Corr) : Option (Mat α) → Option (Mat α) → Prop
  | none : AtAlike ρ none none
  | some {m m' : Mat α} : MatAlike ρ m m' → AtAlike ρ (some m) (some m')

omit [Target] in
theorem MatsAlike.at {ρ : Corr} {ms ms' : List (Mat α)} (h : MatsAlike ρ ms ms') (k : Nat) :
    AtAlike ρ ms[k]? ms'[k]? := by
  induction h generalizing k with
  | nil => exact .none
  | cons h _ ih => cases k with
    | zero => exact .some h
    | succ k => exact ih k

omit [Target] in
theorem alike_with {ρ : Corr} {ms ms' : List (Mat α)} (h : MatsAlike ρ ms ms') (k : Nat)
    {f f' : Mat α → Steps α β} {R : Corr → β → β → Prop}
    (hf : ∀ m m', MatAlike ρ m m' → Alike R ρ (f m) (f' m')) :
    Alike R ρ (stepsWith ms[k]? f) (stepsWith ms'[k]? f') := by
  have := h.at k
  generalize ms[k]? = x at this ⊢
  generalize ms'[k]? = y at this ⊢
  cases this with
  | none => trivial
  | some h => exact hf _ _ h

omit [Target] in
theorem alike_base {ρ : Corr} {ms ms' : List (Mat α)} (h : MatsAlike ρ ms ms') (k : Nat)
    {f f' : BaseMatrix → Steps α β} {R : Corr → β → β → Prop}
    (hf : ∀ b b', BaseAlike ρ b b' → Alike R ρ (f b) (f' b')) :
    Alike R ρ (stepsWith (baseAt ms k) f) (stepsWith (baseAt ms' k) f') := by
  have := h.at k
  unfold baseAt
  generalize ms[k]? = x at this ⊢
  generalize ms'[k]? = y at this ⊢
  cases this with
  | none => trivial
  | @some m m' h =>
    cases m <;> cases m' <;> first | exact h.elim | exact hf _ _ h | trivial

omit [Target] in
theorem alike_result {ρ : Corr} (ho : OneToOne ρ) {t t' : Steps α BaseMatrix} (h : Alike BaseAlike ρ t t') :
    Alike ResultAlike ρ (t >>= fun b => (return (.done, [.base b]) : Steps α (Obs α × List (Mat α))))
      (t' >>= fun b => return (.done, [.base b])) :=
  Alike.bind ho h fun _ _ _ _ _ hb => ⟨rfl, .cons hb .nil⟩

omit [Target] in
theorem alike_obs {ρ : Corr} (ho : OneToOne ρ) {t t' : Steps α β} {f : β → Obs α}
    (h : Alike (fun _ => Eq) ρ t t') :
    Alike ResultAlike ρ (t >>= fun b => return (f b, [])) (t' >>= fun b => return (f b, [])) :=
  Alike.bind ho h fun _ _ _ _ _ hb => ⟨hb ▸ rfl, .nil⟩

theorem alike_element {ρ : Corr} (ho : OneToOne ρ) (cfg : Cfg) {b b' : BaseMatrix}
    (h : BaseAlike ρ b b') (op : ArrOp α) :
    Alike (fun _ => Eq) ρ (elementSteps cfg b op) (elementSteps cfg b' op) := by
  have read : ∀ (ρ' : Corr) (p p' : Loc), OneToOne ρ' → (∀ x y, ρ x y → ρ' x y) → LocAlike ρ' p p' →
      Alike (fun _ => Eq) ρ' (Steps.load p >>= fun v => (return .value v : Steps α (Resp α)))
        (Steps.load p' >>= fun v => return .value v) :=
    fun ρ' p p' _ _ hp => ⟨hp.1, hp.2, fun _ => rfl⟩
  have write : ∀ (v : α) (ρ' : Corr) (p p' : Loc), OneToOne ρ' → (∀ x y, ρ x y → ρ' x y) →
      LocAlike ρ' p p' →
      Alike (fun _ => Eq) ρ' (Steps.store p v >>= fun _ => (return .done : Steps α (Resp α)))
        (Steps.store p' v >>= fun _ => return .done) :=
    fun v ρ' p p' _ _ hp => ⟨hp.1, hp.2, rfl, rfl⟩
  have both : ∀ (f : α → α) (ρ' : Corr) (p p' : Loc), OneToOne ρ' → (∀ x y, ρ x y → ρ' x y) →
      LocAlike ρ' p p' →
      Alike (fun _ => Eq) ρ'
        (Steps.load p >>= fun v => Steps.store p (f v) >>= fun _ => (return .done : Steps α (Resp α)))
        (Steps.load p' >>= fun v => Steps.store p' (f v) >>= fun _ => return .done) :=
    fun f ρ' p p' _ _ hp => ⟨hp.1, hp.2, fun _ => ⟨hp.1, hp.2, rfl, rfl⟩⟩
  cases op with
  | get r c => exact Alike.bind ho (alike_get_mut cfg h r c) read
  | get1d k => exact Alike.bind ho (alike_get1d_mut cfg h k) read
  | set r c v => exact Alike.bind ho (alike_get_mut cfg h r c) (write v)
  | set1d k v => exact Alike.bind ho (alike_get1d_mut cfg h k) (write v)
  | update r c f => exact Alike.bind ho (alike_get_mut cfg h r c) (both f)
  | update1d k f => exact Alike.bind ho (alike_get1d_mut cfg h k) (both f)

theorem alike_get [Add α] [Mul α] {ρ : Corr} (ho : OneToOne ρ) (cfg : Cfg) (r c : Nat) {m m' : Mat α}
    (h : MatAlike ρ m m') :
    Alike (fun _ => Eq) ρ (Steps.get cfg m r c) (Steps.get cfg m' r c) := by
  simp only [Steps.get, h.layout.1]
  refine Alike.bind ho (Alike.same (R := fun _ => Eq) _ fun _ _ => rfl) ?_
  rintro ρ1 _ _ o1 i1 -
  exact alike_get_unchecked o1 cfg r c (h.mono i1)

theorem alike_get1d [Add α] [Mul α] {ρ : Corr} (ho : OneToOne ρ) (cfg : Cfg) (k : Nat) {m m' : Mat α}
    (h : MatAlike ρ m m') :
    Alike (fun _ => Eq) ρ (Steps.get1d cfg m k) (Steps.get1d cfg m' k) := by
  simp only [Steps.get1d, h.layout.1]
  refine Alike.bind ho (Alike.same (R := fun _ => Eq) _ fun _ _ => rfl) ?_
  rintro ρ1 n _ o1 i1 rfl
  refine Alike.bind o1 (Alike.same (R := fun _ => Eq) _ fun _ _ => rfl) ?_
  rintro ρ2 _ _ o2 i2 -
  exact alike_get1d_unchecked o2 cfg k (h.mono fun x y e => i2 x y (i1 x y e))

/-- Operations on corresponding values do the same in the corresponding allocations. -/
theorem op_alike [Zero α] [One α] [Add α] [Mul α] (cfg : Cfg) {K : GemmArgs α → Steps α Unit}
    (hK : Orderly K) {ρ : Corr} (ho : OneToOne ρ) {ms ms' : List (Mat α)} (h : MatsAlike ρ ms ms')
    (op : Op α) : Alike ResultAlike ρ (op.steps cfg K ms) (op.steps cfg K ms') := by
  cases op with
  | zeros k r c => exact alike_result ho (alike_zeros ho cfg k r c)
  | rowZeros n => exact alike_result ho (alike_row_length ho cfg n)
  | rowZerosDim r c => exact alike_result ho (alike_row_dim ho cfg r c)
  | colZeros n => exact alike_result ho (alike_col_length ho cfg n)
  | colZerosDim r c => exact alike_result ho (alike_col_dim ho cfg r c)
  | fixedZeros rs cs k =>
    simp only [Op.steps]
    split
    · exact alike_result ho (alike_fixed ho cfg rs cs k)
    · trivial
  | fixedVector rs cs k n =>
    simp only [Op.steps]
    split
    · cases k.from_length n with
      | none => trivial
      | some l => exact alike_result ho (alike_fixed_vector ho cfg rs cs l n)
    · trivial
  | fromSlice rs cs xs l =>
    refine Alike.bind ho (alike_newSlice ho cfg xs) fun ρ1 d d' o1 _ hd => ?_
    exact alike_result o1 (alike_from_data cfg rs cs hd l)
  | fromVector rs cs n l =>
    refine Alike.bind ho (alike_newVector ho cfg n) fun ρ1 d d' o1 _ hd => ?_
    exact alike_result o1 (alike_from_data cfg rs cs hd l)
  | element k e => exact alike_base h k fun b b' hb => alike_obs ho (alike_element ho cfg hb e)
  | get k r c => exact alike_with h k fun m m' hm => alike_obs ho (alike_get ho cfg r c hm)
  | get1d k i => exact alike_with h k fun m m' hm => alike_obs ho (alike_get1d ho cfg i hm)
  | forEach k f =>
    exact alike_base h k fun b b' hb => alike_obs (f := fun _ => .done) ho (alike_for_each ho cfg hb _ _)
  | fillRand k draw =>
    exact alike_base h k fun b b' hb => alike_obs (f := fun _ => .done) ho (alike_for_each ho cfg hb _ _)
  | readSlice k i j =>
    refine alike_base h k fun b b' hb => ?_
    refine Alike.bind (R := DataAlike) ho (Alike.mapped (f := (·.moved b'.data.buf)) ?_ fun w hw =>
      ⟨rfl, ?_⟩) ?_
    · simp only [BaseMatrix.get_slice, ← moved_slice, ← hb.data.1]
    · rw [slice_buf hw]; exact hb.2
    · intro ρ1 w w' o1 i1 hw
      refine alike_obs o1 ?_
      have hl : w'.len = w.len := by rw [hw.1]; rfl
      simp only [Steps.toList, hl]
      exact Alike.mapM o1 _ fun ρ' k o i => alike_container_get o ⟨hw.1, i _ _ hw.2⟩ k
  | writeSlice k i j xs =>
    refine alike_base h k fun b b' hb => ?_
    refine Alike.bind (R := DataAlike) ho (Alike.mapped (f := (·.moved b'.data.buf)) ?_ fun w hw =>
      ⟨rfl, ?_⟩) ?_
    · simp only [BaseMatrix.get_slice_mut, ← moved_slice_mut, ← hb.data.1]
    · rw [slice_mut_buf hw]; exact hb.2
    · intro ρ1 w w' o1 i1 hw
      refine alike_obs (f := fun _ => .done) o1 ?_
      have hl : w'.len = w.len := by rw [hw.1]; rfl
      simp only [Steps.writeList, hl]
      split
      · refine Alike.forRange (R := fun _ => Eq) o1 _ rfl fun ρ2 n _ _ o2 i2 _ _ => ?_
        cases xs[n]? with
        | none => trivial
        | some v =>
          refine Alike.bind o2 (alike_place ⟨hw.1, i2 _ _ hw.2⟩ n) fun ρ3 p p' _ _ hp => ?_
          exact Alike.store hp rfl
      · trivial
  | block k tl d =>
    refine alike_base h k fun b b' hb => ?_
    have e : hasBlock b' ↔ hasBlock b := by rw [hb.1]; rfl
    simp only [e]
    split
    · refine alike_result ho (Alike.mapped (f := (·.moved b'.data.buf)) ?_ fun v hv => ⟨rfl, ?_⟩)
      · rw [← moved_block, ← hb.1]
      · rw [block_buf hv]; exact hb.2
    · trivial
  | split k p =>
    refine alike_base h k fun b b' hb => ?_
    have e : hasSplit b' ↔ hasSplit b := by rw [hb.1]; rfl
    simp only [e]
    split
    · refine Alike.bind (R := fun ρ q q' => q' = movedFour b'.data.buf q ∧
        ∀ k, ρ (quad q k).data.buf b'.data.buf) ho
        (Alike.mapped (f := movedFour b'.data.buf) ?_ fun v hv => ⟨rfl, ?_⟩) ?_
      · rw [← moved_split, ← hb.1]
      · intro k
        rw [split_buf hv]; exact hb.2
      · rintro ρ1 q _ o1 i1 ⟨rfl, hq⟩
        refine ⟨rfl, ?_⟩
        have : ∀ k, BaseAlike ρ1 (quad q k) (quad (movedFour b'.data.buf q) k) := by
          intro k
          have := hq k
          revert this
          match k with
          | 0 => exact fun e => ⟨rfl, e⟩
          | 1 => exact fun e => ⟨rfl, e⟩
          | 2 => exact fun e => ⟨rfl, e⟩
          | 3 => exact fun e => ⟨rfl, e⟩
        exact List.forall₂_map_left_iff.2 (List.forall₂_map_right_iff.2
          (List.forall₂_same.2 fun k _ => this k))
    · trivial
  | ref k => exact alike_with h k fun m m' hm => ⟨rfl, .cons hm .nil⟩
  | add r1 r2 h1 h2 =>
    refine alike_with h h1 fun a a' ha => alike_with h h2 fun b b' hb => ?_
    simp only [ha.layout.1, ha.layout.2, hb.layout.1, hb.layout.2]
    split
    · have key : ∀ {a a' b b' : Mat α}, MatAlike ρ a a' → MatAlike ρ b b' →
          Alike (α := α) MatAlike ρ (.done (a.addition_new b)) (.done (a'.addition_new b')) := by
        intro a a' b b' ha hb
        simp only [Mat.addition_new, ha.layout.1, hb.layout.1]
        by_cases hd : a.layout.dim = b.layout.dim
        · simp only [hd, Out.assert, if_true]
          exact ⟨ha, hb, rfl⟩
        · simp only [hd, Out.assert, if_false]
          trivial
      refine Alike.bind (R := MatAlike) ho ?_ fun _ _ _ _ _ hm => ⟨rfl, .cons hm .nil⟩
      cases r1 <;> cases r2
      · exact key ha hb
      · exact key (b := b.from_ref) (b' := b'.from_ref) ha hb
      · exact key (a := a.from_ref) (a' := a'.from_ref) ha hb
      · exact key (a := a.from_ref) (a' := a'.from_ref) (b := b.from_ref) (b' := b'.from_ref) ha hb
    · trivial
  | scale r1 r2 x k =>
    refine alike_with h k fun a a' ha => ?_
    cases r1 <;> cases r2 <;> exact ⟨rfl, .cons ⟨ha, rfl⟩ .nil⟩
  | eval k =>
    refine alike_with h k fun m m' hm => ?_
    rw [hm.layout.2]
    split
    · exact alike_result ho (alike_eval ho cfg hm)
    · trivial
  | matmul alpha a b beta c =>
    refine alike_base h a fun ma ma' ha => alike_base h b fun mb mb' hb =>
      alike_base h c fun mc mc' hc => ?_
    have e : matmulImpl ma' mb' mc' ↔ matmulImpl ma mb mc := by
      rw [ha.1, hb.1, hc.1]; rfl
    simp only [e]
    split
    · exact Alike.bind ho (alike_matmul hK ho alpha beta ha hb hc) fun _ _ _ _ _ _ => ⟨rfl, .nil⟩
    · trivial
  | dot a b =>
    refine alike_base h a fun ma ma' ha => alike_base h b fun mb mb' hb => ?_
    have e : dotImpl ma' mb' = dotImpl ma mb := by rw [ha.1, hb.1]; rfl
    rw [e]
    cases dotImpl ma mb with
    | none => trivial
    | some i => exact alike_result ho (alike_dot cfg hK ho i ha hb)

end

end Spec

end Householder
