import Verif.Lemmas.Messages
import Verif.Lemmas.MatMul
import Verif.Lemmas.Views
import Verif.Spec.Messages

/-!
# What the functions say when they panic
-/

namespace Householder

namespace Told

variable {α β : Type}

/-- If it panics, the message satisfies `P`. -/
structure Says (x : Told α) (P : Message → Prop) : Prop where
  /-- of every message -/
  all : ∀ m, x = .panic m → P m

theorem says_ok (a : α) (P : Message → Prop) : (Told.ok a).Says P := ⟨fun _ h => by cases h⟩

theorem says_pure (a : α) (P : Message → Prop) : (pure a : Told α).Says P := ⟨fun _ h => by cases h⟩

theorem says_bind {x : Told α} {f : α → Told β} {P : Message → Prop} (hx : x.Says P)
    (hf : ∀ a, x = .ok a → (f a).Says P) : (x >>= f).Says P := by
  refine ⟨fun m h => ?_⟩
  cases x with
  | ok a => exact (hf a rfl).1 m h
  | panic e => obtain rfl : e = m := by cases h; rfl
               exact hx.1 _ rfl
  | ub => cases h

theorem bind_eq_ok {x : Told α} {f : α → Told β} {b : β} :
    (x >>= f) = .ok b ↔ ∃ a, x = .ok a ∧ f a = .ok b := by
  constructor
  · intro h
    cases x with
    | ok a => exact ⟨a, rfl, h⟩
    | panic e => cases h
    | ub => cases h
  · rintro ⟨a, rfl, h⟩
    exact h

theorem says_assert {p : Prop} [Decidable p] {e : Message} {P : Message → Prop} (h : ¬ p → P e) :
    (Told.assert p e).Says P := by
  refine ⟨fun m hm => ?_⟩
  unfold Told.assert at hm
  split_ifs at hm with hp
  cases hm
  exact h hp

theorem assert_ok {p : Prop} [Decidable p] {e : Message} {u : Unit} (h : Told.assert p e = .ok u) : p := by
  unfold Told.assert at h
  split_ifs at h with hp
  exact hp

theorem says_quiet {x : Out α} (h : x ≠ .panic) (P : Message → Prop) : (quiet x).Says P := by
  refine ⟨fun m hm => ?_⟩
  cases x with
  | ok a => cases hm
  | panic => exact absurd rfl h
  | ub => cases hm

theorem Says.mono {x : Told α} {P Q : Message → Prop} (h : x.Says P) (hq : ∀ m, P m → Q m) : x.Says Q :=
  ⟨fun m e => hq m (h.1 m e)⟩

theorem says_message {x : Told α} {P : Message → Prop} {m : Message} (h : x.Says P) (e : x.message = some m) :
    P m := by
  cases x with
  | ok a => cases e
  | panic k => cases e; exact h.1 _ rfl
  | ub => cases e

theorem message_isSome (x : Told α) : x.message.isSome = true ↔ x.out = .panic := by
  cases x <;> simp [message, out]

theorem ok_out {x : Told α} {a : α} (h : x = .ok a) : x.out = .ok a := by rw [h]; rfl

end Told

namespace Telling

open Spec

variable {α : Type}

/-- A message about overflow in a build that checks. -/
def Arith (cfg : Cfg) (m : Message) : Prop :=
  cfg.overflowChecks = true ∧ (m = .add ∨ m = .sub ∨ m = .mul)

theorem says_wrap [Target] (cfg : Cfg) {e : Message} (he : e = .add ∨ e = .sub ∨ e = .mul) (v : Nat) :
    (wrap cfg e v).Says (Arith cfg) := by
  refine ⟨fun m h => ?_⟩
  unfold wrap at h
  split_ifs at h with h1 h2
  cases h
  exact ⟨h2, he⟩

theorem says_add [Target] (cfg : Cfg) (a b : Nat) : (add cfg a b).Says (Arith cfg) := says_wrap cfg (by simp) _

theorem says_mul [Target] (cfg : Cfg) (a b : Nat) : (mul cfg a b).Says (Arith cfg) := says_wrap cfg (by simp) _

theorem says_sub [Target] (cfg : Cfg) (a b : Nat) : (sub cfg a b).Says (Arith cfg) := by
  refine ⟨fun m h => ?_⟩
  unfold sub at h
  split_ifs at h with h1 h2
  cases h
  exact ⟨h2, by simp⟩

theorem says_udiv (a b : Nat) : (udiv a b).Says fun m => m = .div ∧ b = 0 := by
  refine ⟨fun m h => ?_⟩
  unfold udiv at h
  split_ifs at h with h1
  cases h
  exact ⟨rfl, h1⟩

theorem says_umod (a b : Nat) : (umod a b).Says fun m => m = .rem ∧ b = 0 := by
  refine ⟨fun m h => ?_⟩
  unfold umod at h
  split_ifs at h with h1
  cases h
  exact ⟨rfl, h1⟩

theorem says_forRange {σ : Type} {P : Message → Prop} (n : Nat) (body : Nat → σ → Told σ) (s : σ)
    (h : ∀ i s, (body i s).Says P) : (forRange n body s).Says P := by
  unfold forRange
  generalize List.range n = is
  induction is generalizing s with
  | nil => exact Told.says_pure ..
  | cons i is ih =>
    rw [List.foldlM_cons]
    exact Told.says_bind (h i s) fun s' _ => ih s'

theorem says_2d [Target] (cfg : Cfg) (l : Layout) (row col : Nat) :
    (convert_2d_raw cfg l row col).Says fun m =>
      Arith cfg m ∨ (m = .below row col ∧ col < row ∧ ∃ u, l = .upperTriangular u) := by
  have A : ∀ {x : Told Nat}, x.Says (Arith cfg) → x.Says fun m =>
      Arith cfg m ∨ (m = .below row col ∧ col < row ∧ ∃ u, l = .upperTriangular u) :=
    fun h => h.mono fun _ => .inl
  have S : ∀ s, (strided_2d_raw cfg s row col).Says fun m =>
      Arith cfg m ∨ (m = .below row col ∧ col < row ∧ ∃ u, l = .upperTriangular u) := fun s =>
    Told.says_bind (A (says_mul ..)) fun _ _ => Told.says_bind (A (says_mul ..)) fun _ _ => A (says_add ..)
  cases l with
  | rowMajor l => exact Told.says_bind (A (says_mul ..)) fun _ _ => A (says_add ..)
  | columnMajor l => exact Told.says_bind (A (says_mul ..)) fun _ _ => A (says_add ..)
  | rowVector l => exact Told.says_ok ..
  | columnVector l => exact Told.says_ok ..
  | asRowMajor l => exact S _
  | asColumnMajor l => exact S _
  | asRowVector l => exact A (says_mul ..)
  | asColumnVector l => exact A (says_mul ..)
  | upperTriangular l =>
    refine Told.says_bind (Told.says_assert fun h => .inr ⟨rfl, by omega, _, rfl⟩) fun _ _ =>
      Told.says_bind (A (says_sub ..)) fun _ _ => Told.says_bind (A (says_sub ..)) fun _ _ =>
      Told.says_bind (A (says_sub ..)) fun _ _ => Told.says_bind (A (says_mul ..)) fun _ _ =>
      Told.says_bind ((says_udiv ..).mono fun m h => absurd h.2 (by decide)) fun _ _ =>
      Told.says_bind (A (says_add ..)) fun _ _ => A (says_sub ..)

theorem says_1d [Target] (cfg : Cfg) (l : Layout) (k : Nat) :
    (convert_1d_raw cfg l k).Says fun m => Arith cfg m ∨
      ((m = .div ∨ m = .rem) ∧ ((∃ s, l = .asRowMajor s ∧ s.dim.2 = 0) ∨ ∃ s, l = .asColumnMajor s ∧ s.dim.1 = 0)) := by
  cases l with
  | asRowMajor s =>
    refine Told.says_bind ((says_udiv ..).mono fun m h => .inr ⟨.inl h.1, .inl ⟨s, rfl, h.2⟩⟩) fun _ _ =>
      Told.says_bind ((says_umod ..).mono fun m h => .inr ⟨.inr h.1, .inl ⟨s, rfl, h.2⟩⟩) fun _ _ =>
      Told.says_bind ((says_mul ..).mono fun _ => .inl) fun _ _ => Told.says_bind ((says_mul ..).mono fun _ => .inl)
        fun _ _ => (says_add ..).mono fun _ => .inl
  | asColumnMajor s =>
    refine Told.says_bind ((says_umod ..).mono fun m h => .inr ⟨.inr h.1, .inr ⟨s, rfl, h.2⟩⟩) fun _ _ =>
      Told.says_bind ((says_udiv ..).mono fun m h => .inr ⟨.inl h.1, .inr ⟨s, rfl, h.2⟩⟩) fun _ _ =>
      Told.says_bind ((says_mul ..).mono fun _ => .inl) fun _ _ => Told.says_bind ((says_mul ..).mono fun _ => .inl)
        fun _ _ => (says_add ..).mono fun _ => .inl
  | asRowVector s => exact (says_mul ..).mono fun _ => .inl
  | asColumnVector s => exact (says_mul ..).mono fun _ => .inl
  | _ => exact Told.says_ok ..

theorem says_number [Target] (cfg : Cfg) (l : Layout) : (number_of_elements cfg l).Says (Arith cfg) := by
  cases l with
  | upperTriangular l =>
    exact Told.says_bind (says_add ..) fun _ _ => Told.says_bind (says_mul ..) fun _ _ =>
      (says_udiv ..).mono fun m h => absurd h.2 (by decide)
  | rowVector l => exact Told.says_ok ..
  | columnVector l => exact Told.says_ok ..
  | asRowVector l => exact Told.says_ok ..
  | asColumnVector l => exact Told.says_ok ..
  | _ => exact says_mul ..

theorem number_count [Target] {cfg : Cfg} {l : Layout} {n : Nat} (h : number_of_elements cfg l = .ok n)
    (hm : cfg.overflowChecks = true ∨ (count l < W ∧ TriFits l)) : n = count l := by
  have e := Told.ok_out h
  rw [out_number_of_elements] at e
  rcases hm with hm | ⟨h1, h2⟩
  · exact (number_of_elements_exact hm e).1
  · rw [number_of_elements_ok cfg h1 h2] at e
    exact ((Out.ok.injEq _ _).mp e).symm

theorem two_le_W [Target] : 2 ≤ W := by unfold W; cases Target.width <;> decide

theorem wrap_cases [Target] {cfg : Cfg} {e : Message} {v x : Nat} (hx : wrap cfg e v = .ok x) :
    (v < W ∧ x = v) ∨ (cfg.overflowChecks = false ∧ W ≤ v ∧ x = v % W ∧ x + W ≤ v) := by
  have hW := two_le_W
  unfold wrap at hx
  split_ifs at hx with h1 h2
  · cases hx
    exact .inl ⟨h1, rfl⟩
  · cases hx
    have := Nat.mod_add_div v W
    have h3 : 1 ≤ v / W := (Nat.one_le_div_iff (by omega)).2 (by omega)
    have h4 : W * 1 ≤ W * (v / W) := Nat.mul_le_mul_left _ h3
    exact .inr ⟨by simpa using h2, by omega, rfl, by omega⟩

/-- A number of elements that is not exact wrapped around, and is smaller. -/
theorem number_le [Target] {cfg : Cfg} {l : Layout} {n : Nat} (h : number_of_elements cfg l = .ok n) :
    (n = count l ∧ ¬ Call.Wraps l) ∨ (cfg.overflowChecks = false ∧ Call.Wraps l ∧ n < count l) := by
  have hW := two_le_W
  have wr : ∀ {e : Message} {v x : Nat}, wrap cfg e v = .ok x → _ := fun hx => wrap_cases hx
  have mj : ∀ {e : Message} {v : Nat}, wrap cfg e v = .ok n →
      (n = v ∧ ¬ W ≤ v) ∨ (cfg.overflowChecks = false ∧ W ≤ v ∧ n < v) := by
    intro e v hx
    rcases wr hx with ⟨h1, h2⟩ | ⟨h1, h2, -, h3⟩
    · exact .inl ⟨h2, by omega⟩
    · exact .inr ⟨h1, h2, by omega⟩
  cases l with
  | rowMajor l => exact mj h
  | columnMajor l => exact mj h
  | asRowMajor l => exact mj h
  | asColumnMajor l => exact mj h
  | rowVector l => cases h; exact .inl ⟨rfl, id⟩
  | columnVector l => cases h; exact .inl ⟨rfl, id⟩
  | asRowVector l => cases h; exact .inl ⟨rfl, id⟩
  | asColumnVector l => cases h; exact .inl ⟨rfl, id⟩
  | upperTriangular l =>
    obtain ⟨a, ha, h⟩ := Told.bind_eq_ok.1 h
    obtain ⟨b, hb, h⟩ := Told.bind_eq_ok.1 h
    cases h
    show (b / 2 = l.dim * (l.dim + 1) / 2 ∧ ¬ W ≤ l.dim * (l.dim + 1)) ∨ (_ ∧ W ≤ l.dim * (l.dim + 1) ∧
      b / 2 < l.dim * (l.dim + 1) / 2)
    rcases wr ha with ⟨-, rfl⟩ | ⟨g1, g2, -, g3⟩
    · rcases wr hb with ⟨h1, rfl⟩ | ⟨h1, h2, -, h3⟩
      · exact .inl ⟨rfl, by omega⟩
      · exact .inr ⟨h1, h2, by omega⟩
    · have hd : 1 ≤ l.dim := by omega
      have k1 : l.dim * (a + W) ≤ l.dim * (l.dim + 1) := Nat.mul_le_mul_left _ g3
      have k2 : 1 * W ≤ l.dim * W := Nat.mul_le_mul_right _ hd
      rw [Nat.mul_add] at k1
      have k3 : b ≤ l.dim * a := by
        rcases wr hb with ⟨-, rfl⟩ | ⟨-, -, -, h3⟩ <;> omega
      exact .inr ⟨g1, by omega, by omega⟩

theorem number_le' [Target] {cfg : Cfg} {l : Layout} {n : Nat} (h : number_of_elements cfg l = .ok n) : n ≤ count l := by
  rcases number_le h with ⟨h, -⟩ | ⟨-, -, h⟩ <;> omega

theorem says_stride {l : Layout} (h : l.isStrided = true) (P : Message → Prop) : (stride l).Says P := by
  cases l <;> first | exact Told.says_ok .. | exact absurd h Bool.false_ne_true

theorem says_read {d : Container} {mem : Mem α} {k : Nat} (P : Message → Prop) :
    (Told.quiet (d.get_unchecked mem k)).Says P := by
  apply Told.says_quiet
  unfold Container.get_unchecked Mem.read
  split_ifs
  · split <;> exact fun h => by cases h
  · exact fun h => by cases h

theorem says_place {d : Container} {k : Nat} (P : Message → Prop) :
    (Told.quiet (d.get_unchecked_mut k)).Says P := by
  apply Told.says_quiet
  unfold Container.get_unchecked_mut
  split_ifs <;> exact fun h => by cases h

theorem says_write {mem : Mem α} {p : Loc} {v : α} (P : Message → Prop) :
    (Told.quiet (mem.write p v)).Says P := by
  apply Told.says_quiet
  unfold Mem.write
  split <;> exact fun h => by cases h

theorem says_ptr {p : Ptr} {k : Nat} (P : Message → Prop) : (Told.quiet (p.add k)).Says P := by
  apply Told.says_quiet
  unfold Ptr.add
  split_ifs <;> exact fun h => by cases h

theorem says_parts {p : Ptr} {k : Nat} (P : Message → Prop) : (Told.quiet (p.from_raw_parts k)).Says P := by
  apply Told.says_quiet
  unfold Ptr.from_raw_parts
  split_ifs <;> exact fun h => by cases h

theorem parts_len {p : Ptr} {k : Nat} {d : Container} (h : Told.quiet (p.from_raw_parts k) = .ok d) : d.len = k := by
  unfold Ptr.from_raw_parts at h
  split_ifs at h with h1
  · cases h; rfl
  · cases h

theorem says_newVector [Target] [Zero α] (cfg : Cfg) (mem : Mem α) (n : Nat) :
    (newVector cfg mem n).Says fun m => m = .capacity ∧ isizeMax < n * cfg.item.size := by
  unfold newVector
  split_ifs with h
  · apply Told.says_quiet
    simp [Container.newVector, h]
  · exact ⟨fun m hm => by cases hm; exact ⟨rfl, by omega⟩⟩

theorem newVector_len [Target] [Zero α] {cfg : Cfg} {mem : Mem α} {n : Nat} {x : Container × Mem α}
    (h : newVector cfg mem n = .ok x) : x.1.len = n := by
  unfold newVector at h
  split_ifs at h with h1
  simp only [Container.newVector, if_pos h1, Told.quiet] at h
  cases h
  rfl

theorem says_from_data [Target] (cfg : Cfg) (rs cs : SizeId) (d : Container) (l : Layout) :
    (from_data cfg rs cs d l).Says fun m => Arith cfg m ∨
      ∃ n, m = .data d.len n ∧ number_of_elements cfg l = .ok n ∧ d.len < n :=
  Told.says_bind ((says_number ..).mono fun _ => .inl) fun n hn =>
    Told.says_bind (Told.says_assert fun h => .inr ⟨n, rfl, hn, Nat.not_le.mp h⟩) fun _ _ => Told.says_pure ..

theorem says_from_dimension (k : BaseKind) (dim : Nat × Nat) :
    (from_dimension k dim).Says fun m => Call.ShapeFault k dim m ∨ (m = .columnVector 1 ∧ k = .columnVector) := by
  cases k with
  | rowMajor => exact Told.says_ok ..
  | columnMajor => exact Told.says_ok ..
  | rowVector => exact Told.says_bind (Told.says_assert fun h => .inl ⟨rfl, h⟩) fun _ _ => Told.says_pure ..
  | columnVector =>
    refine Told.says_bind (Told.says_assert fun h => ?_) fun _ _ => Told.says_pure ..
    by_cases h1 : dim.2 = 1
    · exact .inr ⟨by rw [h1], rfl⟩
    · exact .inl ⟨rfl, h1⟩
  | upperTriangular => exact Told.says_bind (Told.says_assert fun h => .inl ⟨rfl, h⟩) fun _ _ => Told.says_pure ..

theorem from_dimension_count {k : BaseKind} {dim : Nat × Nat} {l : Layout} (h : from_dimension k dim = .ok l) :
    count l = Call.area k dim := by
  cases k with
  | rowMajor => cases h; rfl
  | columnMajor => cases h; rfl
  | _ =>
    simp only [from_dimension, Told.assert] at h
    split_ifs at h with h1 <;> cases h
    rfl

theorem says_zeros [Target] [Zero α] (cfg : Cfg) (k : BaseKind) (rows cols : Nat) (mem : Mem α) :
    (zeros_from_dim cfg k rows cols mem).Says fun m => Arith cfg m ∨
      (m = .capacity ∧ isizeMax < Call.area k (rows, cols) * cfg.item.size) ∨
      Call.ShapeFault k (rows, cols) m ∨ (m = .columnVector 1 ∧ k = .columnVector) := by
  refine Told.says_bind ((says_from_dimension ..).mono fun _ h => .inr (.inr h)) fun l hl =>
    Told.says_bind ((says_number ..).mono fun _ => .inl) fun n hn =>
    Told.says_bind ((says_newVector ..).mono fun m h => .inr (.inl ⟨h.1, ?_⟩)) fun x hx =>
    Told.says_bind ((says_from_dimension ..).mono fun _ h => .inr (.inr h)) fun l' hl' =>
    Told.says_bind ((says_from_data ..).mono fun m h => ?_) fun _ _ => Told.says_pure ..
  · rw [← from_dimension_count hl]
    exact lt_of_lt_of_le h.2 (Nat.mul_le_mul_right _ (number_le' hn))
  · rw [hl] at hl'
    obtain rfl : l = l' := (Told.ok.injEq _ _).mp hl'
    rcases h with h | ⟨n', -, h2, h3⟩
    · exact .inl h
    · rw [hn] at h2
      obtain rfl : n = n' := (Told.ok.injEq _ _).mp h2
      rw [newVector_len hx] at h3
      omega

theorem says_row_zeros [Target] [Zero α] (cfg : Cfg) (rows cols : Nat) (mem : Mem α) :
    (row_zeros_from_dim cfg rows cols mem).Says fun m => (m = .zerosRow rows ∧ rows ≠ 1) ∨
      (m = .capacity ∧ rows = 1 ∧ isizeMax < cols * cfg.item.size) := by
  refine Told.says_bind (Told.says_assert fun h => .inl ⟨rfl, h⟩) fun _ h1 =>
    Told.says_bind ((says_newVector ..).mono fun m h => .inr ⟨h.1, Told.assert_ok h1, h.2⟩) fun x hx =>
    Told.says_bind ?_ fun _ _ => Told.says_pure ..
  refine Told.says_bind (Told.says_ok ..) fun n hn => Told.says_bind (Told.says_assert fun h => ?_) fun _ _ =>
    Told.says_pure ..
  cases hn
  exact absurd (newVector_len hx).ge h

theorem says_column_zeros [Target] [Zero α] (cfg : Cfg) (rows cols : Nat) (mem : Mem α) :
    (column_zeros_from_dim cfg rows cols mem).Says fun m => (m = .zerosColumn cols ∧ cols ≠ 1) ∨
      (m = .capacity ∧ cols = 1 ∧ isizeMax < rows * cfg.item.size) := by
  refine Told.says_bind (Told.says_assert fun h => .inl ⟨rfl, h⟩) fun _ h1 =>
    Told.says_bind ((says_newVector ..).mono fun m h => .inr ⟨h.1, Told.assert_ok h1, h.2⟩) fun x hx =>
    Told.says_bind ?_ fun _ _ => Told.says_pure ..
  refine Told.says_bind (Told.says_ok ..) fun n hn => Told.says_bind (Told.says_assert fun h => ?_) fun _ _ =>
    Told.says_pure ..
  cases hn
  exact absurd (newVector_len hx).ge h

theorem says_get_unchecked [Target] [Add α] [Mul α] (cfg : Cfg) (mem : Mem α) (row col : Nat) (m : Mat α) :
    (get_unchecked cfg mem row col m).Says fun e => Arith cfg e ∨ (e = .below row col ∧ col < row) := by
  induction m with
  | base b =>
    exact Told.says_bind ((says_2d ..).mono fun m h => h.imp id fun h => ⟨h.1, h.2.1⟩) fun _ _ => says_read _
  | ref m ih => exact ih
  | addition a b l ih1 ih2 => exact Told.says_bind ih1 fun _ _ => Told.says_bind ih2 fun _ _ => Told.says_pure ..
  | scalarMult a s ih => exact Told.says_bind ih fun _ _ => Told.says_pure ..

theorem says_get1d_unchecked [Target] [Add α] [Mul α] (cfg : Cfg) (mem : Mem α) (k : Nat) (m : Mat α) :
    (get1d_unchecked cfg mem k m).Says fun e => Arith cfg e ∨ e = .div ∨ e = .rem := by
  induction m with
  | base b =>
    exact Told.says_bind ((says_1d ..).mono fun m h => h.imp id fun h => h.1) fun _ _ => says_read _
  | ref m ih => exact ih
  | addition a b l ih1 ih2 => exact Told.says_bind ih1 fun _ _ => Told.says_bind ih2 fun _ _ => Told.says_pure ..
  | scalarMult a s ih => exact Told.says_bind ih fun _ _ => Told.says_pure ..

theorem says_matmul [Target] (kern : Kern α) (alpha : α) (a b : BaseMatrix) (beta : α) (c : BaseMatrix) (mem : Mem α)
    (ha : a.layout.isStrided = true) (hb : b.layout.isStrided = true) (hc : c.layout.isStrided = true) :
    (matmul kern alpha a b beta c mem).Says fun m => m = .product a.layout.dim b.layout.dim c.layout.dim ∧
      ¬ (a.layout.dim.2 = b.layout.dim.1 ∧ c.layout.dim.1 = a.layout.dim.1 ∧ c.layout.dim.2 = b.layout.dim.2) :=
  Told.says_bind (Told.says_assert fun h => ⟨rfl, h⟩) fun _ _ =>
    Told.says_bind (says_stride ha _) fun _ _ => Told.says_bind (says_stride ha _) fun _ _ =>
    Told.says_bind (says_stride hb _) fun _ _ => Told.says_bind (says_stride hb _) fun _ _ =>
    Told.says_bind (says_stride hc _) fun _ _ => Told.says_bind (says_stride hc _) fun _ _ =>
    Told.says_quiet (by apply gemm_ne_panic) _

theorem says_from_pointer [Target] (cfg : Cfg) (p : Ptr) {d s : Nat × Nat} {l : Layout}
    (hl : l = .asRowMajor ⟨d, s⟩ ∨ l = .asColumnMajor ⟨d, s⟩)
    (hs : 1 ≤ d.1 → 1 ≤ d.2 → d.1 * d.2 ≤ extent s d)
    (hf : cfg.overflowChecks = true ∨ (d.1 * d.2 < W ∧ (1 ≤ d.1 → 1 ≤ d.2 → extent s d < W))) :
    (from_pointer_strided cfg p d l).Says (Arith cfg) := by
  have hcount : count l = d.1 * d.2 := by rcases hl with rfl | rfl <;> rfl
  have hraw : ∀ r c, raw l r c = s.1 * r + s.2 * c := by rcases hl with rfl | rfl <;> exact fun _ _ => rfl
  have htri : TriFits l := by rcases hl with rfl | rfl <;> trivial
  have hmaj : ∀ u, l ≠ .upperTriangular u := by rcases hl with rfl | rfl <;> exact fun _ h => by cases h
  have hdim : l.dim = d := by rcases hl with rfl | rfl <;> rfl
  refine Told.says_bind (says_sub ..) fun r hr => Told.says_bind (says_sub ..) fun c hc =>
    Told.says_bind ((says_2d ..).mono fun m h => ?_) fun k hk => Told.says_bind (says_add ..) fun n hn =>
    Told.says_bind (says_parts _) fun x hx => (says_from_data ..).mono fun m h => ?_
  · rcases h with h | ⟨-, -, u, hu⟩
    · exact h
    · exact absurd hu (hmaj u)
  · rcases h with h | ⟨v, -, hv, hlt⟩
    · exact h
    exfalso
    obtain rfl : v = d.1 * d.2 := by
      rw [← hcount]
      exact number_count hv (hf.imp id fun h => ⟨by rw [hcount]; exact h.1, htri⟩)
    rw [parts_len hx] at hlt
    have e1 : 1 ≤ d.1 := Nat.pos_of_ne_zero fun h0 => by simp [h0] at hlt
    have e2 : 1 ≤ d.2 := Nat.pos_of_ne_zero fun h0 => by simp [h0] at hlt
    have hr' := Told.ok_out hr
    have hc' := Told.ok_out hc
    have hk' := Told.ok_out hk
    have hn' := Told.ok_out hn
    rw [out_sub, Cfg.sub_ok cfg e1] at hr'
    rw [out_sub, Cfg.sub_ok cfg e2] at hc'
    obtain rfl := (Out.ok.injEq _ _).mp hr'
    obtain rfl := (Out.ok.injEq _ _).mp hc'
    rw [out_convert_2d_raw] at hk'
    have hkv : k = raw l (d.1 - 1) (d.2 - 1) := by
      rcases hf with hf | hf
      · exact (convert_2d_raw_exact hf hk').1
      · have := hf.2 e1 e2
        unfold extent at this
        rw [convert_2d_raw_ok cfg ⟨by rw [hdim]; omega, by rw [hdim]; omega, fun u hu => absurd hu (hmaj u)⟩
          (by rw [hraw]; omega) htri] at hk'
        exact ((Out.ok.injEq _ _).mp hk').symm
    rw [hraw] at hkv
    rw [out_add] at hn'
    have hx := hs e1 e2
    have hnv : n = k + 1 := by
      refine (Cfg.add_exact (hf.imp id fun h => ?_) hn').1
      have := h.2 e1 e2
      unfold extent at this
      omega
    unfold extent at hx
    omega

theorem says_corner [Target] (cfg : Cfg) (tl dim whole : Nat × Nat) :
    (corner cfg tl dim whole).Says fun m => Arith cfg m ∨ ∃ a r b c, add cfg tl.1 dim.1 = .ok a ∧
      sub cfg a 1 = .ok r ∧ add cfg tl.2 dim.2 = .ok b ∧ sub cfg b 1 = .ok c ∧ m = .corner (r, c) whole := by
  refine Told.says_bind ((says_add ..).mono fun _ => .inl) fun a ha =>
    Told.says_bind ((says_sub ..).mono fun _ => .inl) fun r hr =>
    Told.says_bind ((says_add ..).mono fun _ => .inl) fun b hb =>
    Told.says_bind ((says_sub ..).mono fun _ => .inl) fun c hc => ⟨fun m hm => ?_⟩
  cases hm
  exact .inr ⟨a, r, b, c, ha, hr, hb, hc, rfl⟩

/-- The last row or column of a block, as the message shows it. -/
theorem edge [Target] {cfg : Cfg} {x y a r : Nat} (ha : add cfg x y = .ok a) (hr : sub cfg a 1 = .ok r) :
    (cfg.overflowChecks = false ∧ (x + y = 0 ∨ W < x + y) ∧ r + 1 ≠ x + y) ∨
    (1 ≤ x + y ∧ x + y ≤ W ∧ r + 1 = x + y ∧ (a = x + y ∨ a = 0)) := by
  have hW := two_le_W
  have hs : (1 ≤ a ∧ r = a - 1) ∨ (a = 0 ∧ cfg.overflowChecks = false ∧ r + 1 = W) := by
    unfold sub at hr
    split_ifs at hr with h1 h2
    · cases hr
      exact .inl ⟨h1, rfl⟩
    · cases hr
      obtain rfl : a = 0 := by omega
      refine .inr ⟨rfl, by simpa using h2, ?_⟩
      rw [Nat.mod_eq_of_lt (by omega)]
      omega
  rcases wrap_cases ha with ⟨h1, rfl⟩ | ⟨h1, h2, h3, h4⟩
  · rcases hs with ⟨h2, h3⟩ | ⟨h2, h3, h4⟩
    · exact .inr ⟨h2, by omega, by omega, .inl rfl⟩
    · exact .inl ⟨h3, .inl h2, by omega⟩
  · rcases hs with ⟨g2, g3⟩ | ⟨g2, g3, g4⟩
    · have : a < W := by rw [h3]; exact Nat.mod_lt _ (by omega)
      exact .inl ⟨h1, .inr (by omega), by omega⟩
    · by_cases hw : x + y = W
      · exact .inr ⟨by omega, by omega, by omega, .inr g2⟩
      · exact .inl ⟨h1, .inr (by omega), by omega⟩

theorem tight_cases {l : Layout} (h : IsMajor l) : tight l = (l.dim.2, 1) ∨ tight l = (1, l.dim.1) := by
  cases l <;> first | exact h.elim | exact .inl rfl | exact .inr rfl

theorem says_block [Target] (cfg : Cfg) (m : BaseMatrix) (tl dim : Nat × Nat) (hM : IsMajor m.layout) :
    (block cfg m tl dim).Says fun e => Arith cfg e ∨
      (∃ p, e = .corner p m.layout.dim ∧
        ((cfg.overflowChecks = false ∧
          (tl.1 + dim.1 = 0 ∨ tl.2 + dim.2 = 0 ∨ W < tl.1 + dim.1 ∨ W < tl.2 + dim.2) ∧
          ¬ (p.1 + 1 = tl.1 + dim.1 ∧ p.2 + 1 = tl.2 + dim.2)) ∨
        ((1 ≤ tl.1 + dim.1 ∧ 1 ≤ tl.2 + dim.2 ∧ tl.1 + dim.1 ≤ W ∧ tl.2 + dim.2 ≤ W) ∧
          p.1 + 1 = tl.1 + dim.1 ∧ p.2 + 1 = tl.2 + dim.2 ∧ (m.layout.dim.1 ≤ p.1 ∨ m.layout.dim.2 ≤ p.2)))) ∨
      (∃ x n, e = .data x n ∧ cfg.overflowChecks = false ∧
        (W ≤ tl.1 + dim.1 ∨ W ≤ tl.2 + dim.2 ∨ W ≤ count m.layout)) := by
  refine Told.says_bind ((says_add ..).mono fun _ => .inl) fun a ha =>
    Told.says_bind ((says_add ..).mono fun _ => .inl) fun b hb => ?_
  by_cases hfit : a ≤ m.layout.dim.1 ∧ b ≤ m.layout.dim.2
  · rw [if_pos hfit]
    have hstr : stride m.layout = .ok (tight m.layout) := by
      cases h : m.layout <;> rw [h] at hM <;> first | rfl | exact hM.elim
    refine Told.says_bind (Told.says_ok ..) fun _ _ =>
      Told.says_bind ((says_2d ..).mono fun e h => .inl ?_) fun _ _ => Told.says_bind (says_ptr _) fun ptr _ =>
      Told.says_bind (by rw [hstr]; exact Told.says_ok ..) fun s hs => ?_
    · rcases h with h | ⟨-, -, u, hu⟩
      · exact h
      · rw [hu] at hM
        exact hM.elim
    · rw [hstr] at hs
      obtain rfl := (Told.ok.injEq _ _).mp hs
      rw [strideLayout_eq hM]
      show (from_pointer_strided cfg ptr dim (blockLayout m.layout dim)).Says _
      by_cases hf : cfg.overflowChecks = true ∨ (tl.1 + dim.1 < W ∧ tl.2 + dim.2 < W ∧ count m.layout < W)
      · have e1 : a = tl.1 + dim.1 := by
          rcases wrap_cases ha with h | h
          · exact h.2
          · rcases hf with hf | hf
            · rw [hf] at h; cases h.1
            · omega
        have e2 : b = tl.2 + dim.2 := by
          rcases wrap_cases hb with h | h
          · exact h.2
          · rcases hf with hf | hf
            · rw [hf] at h; cases h.1
            · omega
        rw [e1, e2] at hfit
        refine (says_from_pointer cfg _ (d := dim) (s := tight m.layout) ?_ ?_ ?_).mono fun _ => .inl
        · cases m.layout <;> simp [blockLayout]
        · intro h1 h2
          refine mul_le_extent h1 h2 ?_
          rcases tight_cases hM with e | e <;> rw [e]
          · exact .inl ⟨by show dim.2 ≤ m.layout.dim.2; omega, Nat.le_refl 1⟩
          · exact .inr ⟨by show dim.1 ≤ m.layout.dim.1; omega, Nat.le_refl 1⟩
        · refine hf.imp id fun h => ?_
          have hcnt : count m.layout = m.layout.dim.1 * m.layout.dim.2 := by
            revert hM
            cases m.layout <;> intro hM <;> first | exact hM.elim | rfl
          have hle : dim.1 * dim.2 ≤ m.layout.dim.1 * m.layout.dim.2 := Nat.mul_le_mul (by omega) (by omega)
          refine ⟨by omega, fun h1 h2 => ?_⟩
          refine lt_of_le_of_lt ?_ (hcnt ▸ h.2.2)
          obtain ⟨x, hx⟩ : ∃ x, dim.1 = x + 1 := ⟨dim.1 - 1, by omega⟩
          obtain ⟨y, hy⟩ : ∃ y, dim.2 = y + 1 := ⟨dim.2 - 1, by omega⟩
          unfold extent
          rw [hx, hy]
          have f1 : x + 1 ≤ m.layout.dim.1 := by omega
          have f2 : y + 1 ≤ m.layout.dim.2 := by omega
          rcases tight_cases hM with e | e <;> rw [e]
          · have g : m.layout.dim.2 * (x + 1) ≤ m.layout.dim.2 * m.layout.dim.1 := Nat.mul_le_mul_left _ f1
            rw [Nat.mul_comm m.layout.dim.2 m.layout.dim.1, Nat.mul_add] at g
            show m.layout.dim.2 * (x + 1 - 1) + 1 * (y + 1 - 1) + 1 ≤ _
            rw [Nat.add_sub_cancel, Nat.add_sub_cancel]
            omega
          · have g : m.layout.dim.1 * (y + 1) ≤ m.layout.dim.1 * m.layout.dim.2 := Nat.mul_le_mul_left _ f2
            rw [Nat.mul_add] at g
            show 1 * (x + 1 - 1) + m.layout.dim.1 * (y + 1 - 1) + 1 ≤ _
            rw [Nat.add_sub_cancel, Nat.add_sub_cancel]
            omega
      · have hno : cfg.overflowChecks = false := by
          by_contra hc
          exact hf (.inl (by simpa using hc))
        have hbig : W ≤ tl.1 + dim.1 ∨ W ≤ tl.2 + dim.2 ∨ W ≤ count m.layout := by
          by_contra hc
          exact hf (.inr (by omega))
        refine Told.says_bind ((says_sub ..).mono fun _ => .inl) fun _ _ =>
          Told.says_bind ((says_sub ..).mono fun _ => .inl) fun _ _ =>
          Told.says_bind ((says_2d ..).mono fun e h => .inl ?_) fun _ _ =>
          Told.says_bind ((says_add ..).mono fun _ => .inl) fun _ _ =>
          Told.says_bind (says_parts _) fun _ _ => (says_from_data ..).mono fun e h => ?_
        · rcases h with h | ⟨-, -, u, hu⟩
          · exact h
          · have := blockLayout_major m.layout dim
            rw [hu] at this
            exact this.elim
        · rcases h with h | ⟨n, h, -⟩
          · exact .inl h
          · exact .inr (.inr ⟨_, n, h, hno, hbig⟩)
  · rw [if_neg hfit]
    refine Told.says_bind ((says_corner cfg tl dim m.layout.dim).mono fun e h => h.imp id fun h => .inl ?_)
      fun u hu => ?_
    · obtain ⟨a', r, b', c, ha', hr, hb', hc, rfl⟩ := h
      rw [ha] at ha'
      rw [hb] at hb'
      obtain rfl := (Told.ok.injEq _ _).mp ha'
      obtain rfl := (Told.ok.injEq _ _).mp hb'
      refine ⟨(r, c), rfl, ?_⟩
      show (_ ∧ _ ∧ ¬ (r + 1 = _ ∧ c + 1 = _)) ∨ (_ ∧ r + 1 = _ ∧ c + 1 = _ ∧ (m.layout.dim.1 ≤ r ∨ m.layout.dim.2 ≤ c))
      rcases edge ha hr with ⟨g1, g2, g3⟩ | ⟨g1, g2, g3, g4⟩
      · exact .inl ⟨g1, by omega, fun h => g3 h.1⟩
      · rcases edge hb hc with ⟨k1, k2, k3⟩ | ⟨k1, k2, k3, k4⟩
        · exact .inl ⟨k1, by omega, fun h => k3 h.2⟩
        · exact .inr ⟨⟨g1, k1, g2, k2⟩, g3, k3, by omega⟩
    · obtain ⟨e, he⟩ := corner_panics cfg tl dim m.layout.dim
      rw [he] at hu
      cases hu

theorem says_dimension (row col : Nat) (dim : Nat × Nat) :
    (assert_dimension row col dim).Says fun m => (m = .row row dim ∧ dim.1 ≤ row) ∨ (m = .col col dim ∧ dim.2 ≤ col) :=
  Told.says_bind (Told.says_assert fun h => .inl ⟨rfl, Nat.not_lt.mp h⟩) fun _ _ =>
    Told.says_assert fun h => .inr ⟨rfl, Nat.not_lt.mp h⟩

theorem says_get [Target] [Add α] [Mul α] (cfg : Cfg) (m : Mat α) (mem : Mem α) (row col : Nat) :
    (get cfg m mem row col).Says fun e => (e = .row row m.layout.dim ∧ m.layout.dim.1 ≤ row) ∨
      (e = .col col m.layout.dim ∧ m.layout.dim.2 ≤ col) ∨ Arith cfg e ∨ (e = .below row col ∧ col < row) :=
  Told.says_bind ((says_dimension ..).mono fun _ h => h.imp id .inl) fun _ _ =>
    (says_get_unchecked ..).mono fun _ h => .inr (.inr h)

theorem says_get_mut [Target] (cfg : Cfg) (m : BaseMatrix) (row col : Nat) :
    (get_mut cfg m row col).Says fun e => (e = .row row m.layout.dim ∧ m.layout.dim.1 ≤ row) ∨
      (e = .col col m.layout.dim ∧ m.layout.dim.2 ≤ col) ∨ Arith cfg e ∨ (e = .below row col ∧ col < row) :=
  Told.says_bind ((says_dimension ..).mono fun _ h => h.imp id .inl) fun _ _ =>
    Told.says_bind ((says_2d ..).mono fun _ h => .inr (.inr (h.imp id fun h => ⟨h.1, h.2.1⟩))) fun _ _ => says_place _

theorem says_get1d [Target] [Add α] [Mul α] (cfg : Cfg) (m : Mat α) (mem : Mem α) (k : Nat) :
    (get1d cfg m mem k).Says fun e => (∃ n, e = .elem k n ∧ number_of_elements cfg m.layout = .ok n ∧ n ≤ k) ∨
      Arith cfg e ∨ e = .div ∨ e = .rem := by
  refine Told.says_bind ((says_number ..).mono fun _ h => .inr (.inl h)) fun n hn => ?_
  exact Told.says_bind (Told.says_assert fun h => .inl ⟨n, rfl, hn, Nat.not_lt.mp h⟩) fun _ _ =>
    (says_get1d_unchecked ..).mono fun _ h => .inr h

theorem says_get1d_mut [Target] (cfg : Cfg) (m : BaseMatrix) (k : Nat) :
    (get1d_mut cfg m k).Says fun e =>
      (∃ n, e = .elem k n ∧ number_of_elements cfg m.layout = .ok n ∧ n ≤ k) ∨ Arith cfg e := by
  refine Told.says_bind ((says_number ..).mono fun _ h => .inr h) fun n hn => ?_
  refine Told.says_bind (Told.says_assert fun h => .inl ⟨n, rfl, hn, Nat.not_lt.mp h⟩) fun _ hk =>
    Told.says_bind ((says_1d ..).mono fun e he => .inr ?_) fun _ _ => says_place _
  rcases he with he | ⟨-, he⟩
  · exact he
  · have hz : count m.layout = 0 := by
      rcases he with ⟨s, hs, h0⟩ | ⟨s, hs, h0⟩ <;> rw [hs] <;> simp [count, h0]
    have := Told.assert_ok hk
    have := number_le' hn
    omega

theorem says_get_slice (d : Container) (first last : Nat) :
    (get_slice d first last).Says fun e => (e = .first first last ∧ last ≤ first) ∨
      (e = .lastBeyond last d.len ∧ d.len < last) :=
  Told.says_bind (Told.says_assert fun h => .inl ⟨rfl, Nat.not_lt.mp h⟩) fun _ _ =>
    Told.says_bind (Told.says_assert fun h => .inr ⟨rfl, Nat.not_le.mp h⟩) fun _ _ =>
    Told.says_bind (says_ptr _) fun _ _ => says_parts _

theorem says_get_slice_mut (d : Container) (first last : Nat) :
    (get_slice_mut d first last).Says fun e => (e = .first first last ∧ last ≤ first) ∨
      (e = .firstBeyond first d.len ∧ d.len ≤ first) ∨ (e = .lastBeyond last d.len ∧ d.len < last) :=
  Told.says_bind (Told.says_assert fun h => .inl ⟨rfl, Nat.not_lt.mp h⟩) fun _ _ =>
    Told.says_bind (Told.says_assert fun h => .inr (.inl ⟨rfl, Nat.not_lt.mp h⟩)) fun _ _ =>
    Told.says_bind (Told.says_assert fun h => .inr (.inr ⟨rfl, Nat.not_le.mp h⟩)) fun _ _ =>
    Told.says_bind (says_ptr _) fun _ _ => says_parts _

theorem says_addition (a b : Mat α) :
    (addition_new a b).Says fun e => e = .sum a.layout.dim b.layout.dim ∧ a.layout.dim ≠ b.layout.dim :=
  Told.says_bind (Told.says_assert fun h => ⟨rfl, h⟩) fun _ _ => Told.says_pure ..

theorem from_data_layout [Target] {cfg : Cfg} {rs cs : SizeId} {d : Container} {l : Layout} {m : BaseMatrix}
    (h : from_data cfg rs cs d l = .ok m) : m.layout = l := by
  obtain ⟨_, -, h⟩ := Told.bind_eq_ok.1 h
  obtain ⟨_, -, h⟩ := Told.bind_eq_ok.1 h
  cases h
  rfl

theorem zeros_layout [Target] [Zero α] {cfg : Cfg} {rows cols : Nat} {mem : Mem α} {x : BaseMatrix × Mem α}
    (h : zeros_from_dim cfg .rowMajor rows cols mem = .ok x) : x.1.layout = .rowMajor ⟨(rows, cols)⟩ := by
  obtain ⟨_, -, h⟩ := Told.bind_eq_ok.1 h
  obtain ⟨_, -, h⟩ := Told.bind_eq_ok.1 h
  obtain ⟨_, -, h⟩ := Told.bind_eq_ok.1 h
  obtain ⟨l, hl, h⟩ := Told.bind_eq_ok.1 h
  obtain ⟨m, hm, h⟩ := Told.bind_eq_ok.1 h
  cases h
  cases hl
  exact from_data_layout hm

theorem row_zeros_layout [Target] [Zero α] {cfg : Cfg} {rows cols : Nat} {mem : Mem α} {x : BaseMatrix × Mem α}
    (h : row_zeros_from_dim cfg rows cols mem = .ok x) : rows = 1 ∧ x.1.layout = .rowVector ⟨cols⟩ := by
  obtain ⟨_, h1, h⟩ := Told.bind_eq_ok.1 h
  obtain ⟨_, -, h⟩ := Told.bind_eq_ok.1 h
  obtain ⟨m, hm, h⟩ := Told.bind_eq_ok.1 h
  cases h
  exact ⟨Told.assert_ok h1, from_data_layout hm⟩

theorem column_zeros_layout [Target] [Zero α] {cfg : Cfg} {rows cols : Nat} {mem : Mem α} {x : BaseMatrix × Mem α}
    (h : column_zeros_from_dim cfg rows cols mem = .ok x) : cols = 1 ∧ x.1.layout = .columnVector ⟨rows⟩ := by
  obtain ⟨_, h1, h⟩ := Told.bind_eq_ok.1 h
  obtain ⟨_, -, h⟩ := Told.bind_eq_ok.1 h
  obtain ⟨m, hm, h⟩ := Told.bind_eq_ok.1 h
  cases h
  exact ⟨Told.assert_ok h1, from_data_layout hm⟩

theorem says_dot [Target] [Zero α] [One α] (cfg : Cfg) (kern : Kern α) (i : DotImpl) (a b : BaseMatrix) (mem : Mem α)
    (ha : a.layout.isStrided = true) (hb : b.layout.isStrided = true) :
    (dot cfg kern i a b mem).Says fun e => Arith cfg e ∨
      (e = .product a.layout.dim b.layout.dim (a.layout.dim.1, b.layout.dim.2) ∧ a.layout.dim.2 ≠ b.layout.dim.1) ∨
      (i = .rowMat ∧ e = .zerosRow a.layout.dim.1 ∧ a.layout.dim.1 ≠ 1) ∨
      (i = .matCol ∧ e = .zerosColumn b.layout.dim.2 ∧ b.layout.dim.2 ≠ 1) ∨
      (e = .capacity ∧ isizeMax < a.layout.dim.1 * b.layout.dim.2 * cfg.item.size) := by
  have fin : ∀ c : BaseMatrix, c.layout.isStrided = true → c.layout.dim = (a.layout.dim.1, b.layout.dim.2) →
      ∀ mem, (matmul kern 1 a b 0 c mem).Says fun e =>
        e = .product a.layout.dim b.layout.dim (a.layout.dim.1, b.layout.dim.2) ∧ a.layout.dim.2 ≠ b.layout.dim.1 := by
    intro c hc hd mem
    refine (says_matmul kern 1 a b 0 c mem ha hb hc).mono fun m h => ?_
    rw [hd] at h
    exact ⟨h.1, fun he => h.2 ⟨he, rfl, rfl⟩⟩
  cases i with
  | matMat =>
    refine Told.says_bind ((says_zeros cfg .rowMajor _ _ mem).mono fun e h => ?_) fun x hx =>
      Told.says_bind ((fin x.1 (by rw [zeros_layout hx]; rfl) (by rw [zeros_layout hx]; rfl) _).mono
        fun _ h => .inr (.inl h)) fun _ _ => Told.says_pure ..
    rcases h with h | h | h | ⟨-, h⟩
    · exact .inl h
    · exact .inr (.inr (.inr (.inr h)))
    · cases e <;> exact h.elim
    · cases h
  | rowMat =>
    refine Told.says_bind ((says_row_zeros cfg _ _ mem).mono fun e h => ?_) fun x hx =>
      Told.says_bind ((fin x.1 (by rw [(row_zeros_layout hx).2]; rfl)
        (by rw [(row_zeros_layout hx).2, (row_zeros_layout hx).1]; rfl) _).mono
        fun _ h => .inr (.inl h)) fun _ _ => Told.says_pure ..
    rcases h with h | ⟨h, h1, h2⟩
    · exact .inr (.inr (.inl ⟨rfl, h⟩))
    · exact .inr (.inr (.inr (.inr ⟨h, by rw [h1, Nat.one_mul]; exact h2⟩)))
  | matCol =>
    refine Told.says_bind ((says_column_zeros cfg _ _ mem).mono fun e h => ?_) fun x hx =>
      Told.says_bind ((fin x.1 (by rw [(column_zeros_layout hx).2]; rfl)
        (by rw [(column_zeros_layout hx).2, (column_zeros_layout hx).1]; rfl) _).mono
        fun _ h => .inr (.inl h)) fun _ _ => Told.says_pure ..
    rcases h with h | ⟨h, h1, h2⟩
    · exact .inr (.inr (.inr (.inl ⟨rfl, h⟩)))
    · exact .inr (.inr (.inr (.inr ⟨h, by rw [h1, Nat.mul_one]; exact h2⟩)))

theorem says_eval [Target] [Zero α] [Add α] [Mul α] (cfg : Cfg) (m : Mat α) (mem : Mem α) :
    (eval cfg m mem).Says fun e => Arith cfg e ∨
      (e = .capacity ∧ isizeMax < Call.area m.layout.indexKind m.layout.dim * cfg.item.size) ∨
      Call.ShapeFault m.layout.indexKind m.layout.dim e ∨ (e = .columnVector 1 ∧ m.layout.indexKind = .columnVector) ∨
      e = .div ∨ e = .rem :=
  Told.says_bind ((says_zeros cfg m.layout.indexKind _ _ mem).mono fun _ h =>
      h.imp id fun h => h.imp id fun h => h.imp id .inl) fun _ _ =>
    Told.says_bind ((says_number ..).mono fun _ => .inl) fun _ _ =>
    Told.says_bind (says_forRange _ _ _ fun _ _ =>
      Told.says_bind ((says_get1d_unchecked ..).mono fun _ h => h.imp id fun h => .inr (.inr (.inr h))) fun _ _ =>
      Told.says_bind ((says_1d ..).mono fun _ h => h.imp id fun h => .inr (.inr (.inr h.1))) fun _ _ =>
      Told.says_bind (says_place _) fun _ _ => says_write _) fun _ _ => Told.says_pure ..

end Telling

end Householder
