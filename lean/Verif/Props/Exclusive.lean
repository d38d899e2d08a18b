import Mathlib.Logic.Relation
import Verif.Spec.Exclusive
import Verif.Props.Lifetimes
import Verif.Props.Exact

/-!
# Property C77: shared or mutable
-/

namespace Householder.Props

open Spec

variable {α : Type}

/-! ### Footprints -/

/-- The cells of an expression, by the cells of its matrices. -/
def foot (F : BaseMatrix → Loc → Prop) : Mat α → Loc → Prop
  | .base b, q => F b q
  | .ref m, q => foot F m q
  | .addition a b _, q => foot F a q ∨ foot F b q
  | .scalarMult m _, q => foot F m q

theorem foot_storage {F : BaseMatrix → Loc → Prop} (hF : ∀ b q, F b q → q.buf = b.data.buf)
    {m : Mat α} {q : Loc} (h : foot F m q) : q.buf ∈ storage m := by
  induction m with
  | base b => simpa [storage] using hF b q h
  | ref m ih => exact ih h
  | addition a b l iha ihb =>
    rcases h with h | h
    · exact List.mem_append_left _ (iha h)
    · exact List.mem_append_right _ (ihb h)
  | scalarMult m s ih => exact ih h

theorem foot_mono [Target] {F G : BaseMatrix → Loc → Prop} {mem : Mem α}
    (hFG : ∀ b q, Good b mem → F b q → G b q) {m : Mat α} (hm : GoodMat mem m) {q : Loc}
    (h : foot F m q) : foot G m q := by
  induction m with
  | base b => exact hFG b q hm h
  | ref m ih => exact ih hm h
  | addition a b l iha ihb => exact h.imp (iha hm.1) (ihb hm.2.1)
  | scalarMult m s ih => exact ih hm h

/-- The cells of the elements. -/
def inCells (b : BaseMatrix) (q : Loc) : Prop := ∃ r c, Stored b.layout r c ∧ q = cell b r c

theorem inCells_window [Target] {b : BaseMatrix} {mem : Mem α} (h : Good b mem) {q : Loc}
    (hq : inCells b q) : inWindow q b := by
  obtain ⟨r, c, hs, rfl⟩ := hq
  have := h.sound.inside r c hs
  exact ⟨rfl, by simp [cell], by simp [cell, this]⟩

/-! ### Views are inside the window of their matrix -/

theorem from_pointer_strided_within [Target] {cfg : Cfg} {p : Ptr} {d : Nat × Nat} {l : Layout}
    {v : BaseMatrix} (h : from_pointer_strided cfg p d l = .ok v) {q : Loc} (hq : inWindow q v) :
    q.buf = p.prov.buf ∧ p.prov.off ≤ q.idx ∧ q.idx < p.prov.off + p.prov.len := by
  simp only [from_pointer_strided, Out.bind_eq_ok] at h
  obtain ⟨_, _, _, _, _, _, _, _, c, hc, h⟩ := h
  obtain ⟨h1, h2, h3⟩ := hq
  rw [from_data_data h] at h1 h2 h3
  unfold Ptr.from_raw_parts at hc
  split at hc
  · cases hc
    simp only at h1 h2 h3
    exact ⟨h1, by omega, by omega⟩
  · cases hc

theorem block_window [Target] {cfg : Cfg} {b v : BaseMatrix} {tl d : Nat × Nat} (h : b.block cfg tl d = .ok v)
    {q : Loc} (hq : inWindow q v) : inWindow q b := by
  simp only [BaseMatrix.block, Out.bind_eq_ok] at h
  obtain ⟨_, _, _, _, _, _, _, _, p, hp, _, _, h⟩ := h
  split at h
  · have := from_pointer_strided_within h hq
    unfold Ptr.add at hp
    split at hp
    · cases hp; exact this
    · cases hp
  · cases h

theorem split_window [Target] {cfg : Cfg} {b : BaseMatrix} {s : Nat × Nat}
    {q : BaseMatrix × BaseMatrix × BaseMatrix × BaseMatrix}
    (h : b.split_in_four_mut cfg s = .ok q) (k : Fin 4) {x : Loc} (hx : inWindow x (quad q k)) :
    inWindow x b := by
  have key : ∀ {z : Int} {p : Ptr} {d : Nat × Nat} {l : Layout} {v : BaseMatrix},
      b.get_pointer.offset z = .ok p → from_pointer_strided cfg p d l = .ok v →
      inWindow x v → inWindow x b := by
    intro z p d l v hp hv hq
    have := from_pointer_strided_within hv hq
    unfold Ptr.offset at hp
    split at hp
    · cases hp; exact this
    · cases hp
  unfold BaseMatrix.split_in_four_mut at h
  split at h
  · simp only [Out.bind_eq_ok, Out.pure_eq] at h
    obtain ⟨_, _, _, _, _, _, _, _, _, _, _, _, _, _, _, _, _, _, _, h0, _, g0, _, h1, _, g1, _, h2,
      _, g2, _, h3, _, g3, h⟩ := h
    cases h
    match k with
    | 0 => exact key h0 g0 hx
    | 1 => exact key h1 g1 hx
    | 2 => exact key h2 g2 hx
    | 3 => exact key h3 g3 hx
  · cases h

/-- The parts of a split show the matrix and have no cell in common. -/
theorem split_cells [Target] {cfg : Cfg} {b : BaseMatrix} {mem : Mem α} (hb : Good b mem)
    (hs : hasSplit b = true) {s : Nat × Nat}
    (hmode : cfg.overflowChecks = true ∨
      (0 < s.1 ∧ s.1 < b.layout.dim.1 ∧ 0 < s.2 ∧ s.2 < b.layout.dim.2))
    {q : BaseMatrix × BaseMatrix × BaseMatrix × BaseMatrix}
    (h : b.split_in_four_mut cfg s = .ok q) :
    (∀ k x, inCells (quad q k) x → inCells b x) ∧
    ∀ k k' x, k ≠ k' → inCells (quad q k) x → ¬ inCells (quad q k') x := by
  obtain ⟨R, C, hl⟩ : ∃ R C, b.layout = .rowMajor ⟨(R, C)⟩ := by
    unfold hasSplit at hs
    cases e : b.layout with
    | rowMajor l => exact ⟨l.dim.1, l.dim.2, rfl⟩
    | _ => simp [e] at hs
  have hr : 0 < s.1 ∧ s.1 < R ∧ 0 < s.2 ∧ s.2 < C := by
    rcases hmode with hc | hr
    · by_contra hn
      have := ((C32_partial cfg hc b mem hb.sound R C hl s).1).2 hn
      rw [this] at h
      cases h
    · simpa [hl, Layout.dim] using hr
  obtain ⟨q', e, h1, -⟩ := C31_split_partition cfg b mem hb.sound R C hl s hr.1 hr.2.1 hr.2.2.1
    hr.2.2.2
  obtain ⟨q'', e', h2, -⟩ := C33_partial cfg b mem hb.sound R C hl s hr.1 hr.2.1 hr.2.2.1 hr.2.2.2
  obtain rfl : q = q' := by simpa [h] using e
  obtain rfl : q = q'' := by simpa [h] using e'
  obtain ⟨_, _, hfit⟩ := split_blocks cfg hb.sound hl hr.1 hr.2.1 hr.2.2.1 hr.2.2.2
  constructor
  · rintro k x ⟨i, j, hij, rfl⟩
    obtain ⟨hd, hsh⟩ := h1 k
    obtain ⟨-, hf, -⟩ := hfit k
    refine ⟨(origin s k).1 + i, (origin s k).2 + j, ?_, hsh i j hij.1 hij.2.1⟩
    have h3 := hij.1
    have h4 := hij.2.1
    rw [hd] at h3 h4
    unfold Fits at hf
    exact ⟨by omega, by omega, fun u hu => by rw [hl] at hu; cases hu⟩
  · rintro k k' x hk ⟨i, j, hij, rfl⟩ ⟨i', j', hij', e⟩
    exact h2 k k' hk i j i' j' hij hij' e

/-! ### Chains of borrows -/

/-- `g` borrows from `h`, directly or through other values. -/
def Up (L : Nat → List Nat) (g h : Nat) : Prop := Relation.TransGen (fun a b => b ∈ L a) g h

theorem up_last {L : Nat → List Nat} {P : Nat → Prop} (hL : ∀ a, P a → ∀ b ∈ L a, P b) {g h : Nat}
    (hg : P g) (hu : Up L g h) : ∃ y, P y ∧ h ∈ L y := by
  have : P h ∧ ∃ y, P y ∧ h ∈ L y := by
    induction hu with
    | single h => exact ⟨hL _ hg _ h, _, hg, h⟩
    | tail _ h ih => exact ⟨hL _ ih.1 _ h, _, ih.1, h⟩
  exact this.2

theorem up_keep {L L' : Nat → List Nat} {P : Nat → Prop} (hL : ∀ a, P a → ∀ b ∈ L a, P b)
    (hk : ∀ a, P a → L' a = L a) {g h : Nat} (hg : P g) (hu : Up L g h) : Up L' g h := by
  have : P h ∧ Up L' g h := by
    induction hu with
    | single h => exact ⟨hL _ hg _ h, .single (by rw [hk _ hg]; exact h)⟩
    | tail _ h ih => exact ⟨hL _ ih.1 _ h, .tail ih.2 (by rw [hk _ ih.1]; exact h)⟩
  exact this.2

/-- The first step of a chain. -/
theorem up_first {L : Nat → List Nat} {g g' h : Nat} (hg : ∀ b ∈ L g, b ∈ L g') (hu : Up L g h) :
    Up L g' h := by
  rcases Relation.TransGen.head'_iff.1 hu with ⟨y, h1, h2⟩
  exact Relation.TransGen.head' (hg y h1) h2

/-! ### The invariant -/

/-- The lenders of a value. -/
def lendersOf (x : XSt α) (h : Nat) : List Nat := (x.t.life h).lenders

/-- Values that are still there and share a cell, one of which can be written to, borrow one from the
other: the writable one is the lender, or it has an exclusive borrow. Exceptions, if any, are between
parts of splits. -/
def Sep (F : Bool → BaseMatrix → Loc → Prop) (E : Prop) (x : XSt α) : Prop :=
  ∀ g h mg mh q, (x.t.life g).live = true → (x.t.life h).live = true → g ≠ h →
    x.writable h = true → x.t.st.mats[g]? = some mg → x.t.st.mats[h]? = some mh →
    foot (F (x.part g)) mg q → foot (F (x.part h)) mh q →
    Up (lendersOf x) g h ∨ Up x.excl h g ∨ (E ∧ x.part g = true ∧ x.part h = true)

/-- Exclusive borrows are borrows. -/
structure ExclBy (P : Mem α → Mat α → Prop) (x : XSt α) : Prop where
  owned : OwnedBy P x.t
  sub : ∀ h, (x.t.life h).live = true → ∀ g ∈ x.excl h, g ∈ (x.t.life h).lenders

/-- The same with the invariant of C50. -/
abbrev Excl [Target] (x : XSt α) : Prop := ExclBy GoodMat x

variable {P : Mem α → Mat α → Prop}

theorem ExclBy.up_lent {x : XSt α} (X : ExclBy P x) {g h : Nat} (hg : (x.t.life g).live = true)
    (hu : Up (lendersOf x) g h) : ¬ NotLent x.t h := by
  intro hn
  obtain ⟨y, h1, h2⟩ := up_last (P := fun a => (x.t.life a).live = true)
    (fun a ha b hb => (X.owned.lent a ha b hb).2) hg hu
  exact hn y h1 h2

theorem ExclBy.up_excl {x : XSt α} (X : ExclBy P x) {g h : Nat} (hg : (x.t.life g).live = true)
    (hu : Up x.excl g h) : ¬ Readable x h := by
  intro hn
  obtain ⟨y, h1, h2⟩ := up_last (P := fun a => (x.t.life a).live = true)
    (fun a ha b hb => (X.owned.lent a ha b (X.sub a ha b hb)).2) hg hu
  exact hn y h1 h2

theorem OwnedBy.stored_lt {t : LSt α} (H : OwnedBy P t) (g : Nat) (hg : (t.life g).live = true) (m : Mat α)
    (hm : t.st.mats[g]? = some m) : ∀ b ∈ storage m, b < t.st.mem.bufs.length := by
  induction g using Nat.strong_induction_on generalizing m with
  | _ g ih =>
    intro b hb
    rcases H.cover g m hg hm b hb with h | h | ⟨k, hk, mk, hmk, hbk⟩
    · exact (H.owns g hg b h).1
    · exact H.program b (H.slices g hg b h).1
    · obtain ⟨hlt, hkl⟩ := H.lent g hg k hk
      exact ih k hlt hkl mk hmk b hbk

/-! ### One operation -/

section

variable [Zero α] [One α] [Add α] [Mul α]

theorem exec_foot [Target] {cfg : Cfg} {kern : Kern α} {s s' : St α} {op : Op α} {o : Obs α}
    {F : Bool → BaseMatrix → Loc → Prop} {part : Nat → Bool}
    (hmono : ∀ m ∈ s.mats, ∀ q, foot (F true) m q → foot (F false) m q)
    (hblock : ∀ k tl d b v, op = .block k tl d → s.base? k = some b → b.block cfg tl d = .ok v →
      ∀ q, F (part k) v q → F (part k) b q)
    (hsplit : ∀ k p b v, op = .split k p → s.base? k = some b → hasSplit b = true →
      b.split_in_four_mut cfg p = .ok v → ∀ i q, F true (quad v i) q → F (part k) b q)
    (h : op.exec cfg kern s = .ok (o, s')) (ho : op.owns = false) :
    ∃ new, s'.mats = s.mats ++ new ∧ ∀ m ∈ new, ∀ q, foot (F (op.givesPart part)) m q →
      ∃ k ∈ op.moves ++ op.borrows, ∃ mk, s.mats[k]? = some mk ∧ foot (F (part k)) mk q := by
  obtain ⟨⟨new, e1, e2⟩, -⟩ := C73_operation cfg kern s s' op o (by simp [Op.step, h])
  refine ⟨new, e1, ?_⟩
  have none : op.creates = 0 → ∀ m ∈ new, ∀ q, foot (F (op.givesPart part)) m q →
      ∃ k ∈ op.moves ++ op.borrows, ∃ mk, s.mats[k]? = some mk ∧ foot (F (part k)) mk q := by
    intro hc
    have : new = [] := by
      apply List.eq_nil_of_length_eq_zero
      rw [e2]; cases o <;> simp [Op.created, hc]
    subst this
    simp
  have down : ∀ {m : Mat α} {P : Bool} {q : Loc} {k : Nat}, s.mats[k]? = some m →
      (part k = true → P = true) → foot (F P) m q → foot (F (part k)) m q := by
    intro m P q k hm hP hq
    cases hk : part k with
    | true => rw [← hP hk]; exact hq
    | false =>
      cases P with
      | false => exact hq
      | true => exact hmono m (List.mem_of_getElem? hm) q hq
  cases op with
  | block k tl d =>
    simp only [Op.exec, withSome] at h
    split at h
    · rename_i b hb
      split at h
      · simp only [Out.bind_eq_ok, Out.pure_eq] at h
        obtain ⟨v, hv, h⟩ := h
        cases h
        obtain rfl : [.base v] = new := List.append_cancel_left e1
        simp only [List.mem_singleton, forall_eq, Op.moves, Op.borrows, List.nil_append,
          exists_eq_left, Op.givesPart, List.any_cons, List.any_nil, Bool.or_false]
        exact fun q hq => ⟨_, base?_some hb, hblock k tl d b v rfl hb hv q hq⟩
      · cases h
    · cases h
  | split k p =>
    simp only [Op.exec, withSome] at h
    split at h
    · rename_i b hb
      split at h
      · rename_i hhs
        simp only [Out.bind_eq_ok, Out.pure_eq] at h
        obtain ⟨v, hv, h⟩ := h
        cases h
        have : _ = new := List.append_cancel_left e1
        subst this
        simp only [List.mem_map, forall_exists_index, and_imp, Op.moves, Op.borrows,
          List.nil_append, List.mem_singleton, exists_eq_left, Op.givesPart]
        rintro m i - rfl q hq
        exact ⟨_, base?_some hb, hsplit k p b v rfl hb hhs hv i q hq⟩
      · cases h
    · cases h
  | ref k =>
    simp only [Op.exec, withSome] at h
    split at h
    · rename_i m hm
      cases h
      obtain rfl : [m.from_ref] = new := List.append_cancel_left e1
      simp only [List.mem_singleton, forall_eq, Op.moves, Op.borrows, List.nil_append,
          exists_eq_left]
      exact fun q hq => ⟨_, hm, down hm (fun hk => by simp [Op.givesPart, Op.moves, Op.borrows, hk]) hq⟩
    · cases h
  | add rl rr k1 k2 =>
    simp only [Op.exec, withSome] at h
    split at h
    · rename_i ma ha
      split at h
      · rename_i mb hb
        split at h
        · have key : ∀ m, (∀ q, foot (F ((Op.add rl rr k1 k2 : Op α).givesPart part)) m q →
              foot (F ((Op.add rl rr k1 k2 : Op α).givesPart part)) ma q ∨
              foot (F ((Op.add rl rr k1 k2 : Op α).givesPart part)) mb q) → new = [m] →
              ∀ m ∈ new, ∀ q, foot (F ((Op.add rl rr k1 k2 : Op α).givesPart part)) m q →
              ∃ k ∈ (Op.add rl rr k1 k2 : Op α).moves ++ (Op.add rl rr k1 k2 : Op α).borrows,
                ∃ mk, s.mats[k]? = some mk ∧ foot (F (part k)) mk q := by
            rintro m hm rfl
            simp only [List.mem_singleton, forall_eq]
            intro q hq
            rcases hm q hq with h' | h'
            · exact ⟨k1, by cases rl <;> simp [Op.moves, Op.borrows], ma, ha, down ha (fun hk => by
                cases rl <;> simp [Op.givesPart, Op.moves, Op.borrows, hk]) h'⟩
            · exact ⟨k2, by cases rr <;> simp [Op.moves, Op.borrows], mb, hb, down hb (fun hk => by
                cases rr <;> simp [Op.givesPart, Op.moves, Op.borrows, hk]) h'⟩
          have add : ∀ {a b m : Mat α}, Mat.addition_new a b = .ok m → ∀ {G q},
              foot G m q → foot G a q ∨ foot G b q := by
            intro a b m hm G q hq
            simp only [Mat.addition_new, Out.bind_eq_ok, Out.pure_eq] at hm
            obtain ⟨_, _, hm⟩ := hm
            cases hm; exact hq
          cases rl <;> cases rr <;>
          · simp only [Out.bind_eq_ok, Out.pure_eq] at h
            obtain ⟨m, hm, h⟩ := h
            cases h
            exact key m (fun q hq => add hm hq) (List.append_cancel_left e1).symm
        · cases h
      · cases h
    · cases h
  | scale sf br y k =>
    simp only [Op.exec, withSome] at h
    split at h
    · rename_i m hm
      cases h
      have : _ = new := List.append_cancel_left e1
      subst this
      simp only [List.mem_singleton, forall_eq]
      intro q hq
      refine ⟨k, by cases br <;> simp [Op.moves, Op.borrows], m, hm, down hm (P :=
        (Op.scale sf br y k : Op α).givesPart part) (fun hk => by
        cases br <;> simp [Op.givesPart, Op.moves, Op.borrows, hk]) ?_⟩
      cases sf <;> cases br <;> exact hq
    · cases h
  | _ => first | exact none rfl | simp [Op.owns] at ho

omit [Zero α] [One α] [Add α] [Mul α] in
theorem givesMut_cases {mutable : Bool} {op : Op α} (hg : op.givesMut mutable = true)
    (ho : op.owns = false) : ∃ k, op.moves ++ op.borrows = [k] ∧ k ∈ op.takesMut mutable ∧
      k ∈ op.exclusive mutable ∧ (∀ part : Nat → Bool, part k = true → op.givesPart part = true) := by
  cases op with
  | block k tl d =>
    have : mutable = true := hg
    subst this
    exact ⟨k, rfl, by simp [Op.takesMut, Op.exclusive], by simp [Op.exclusive],
      fun part h => by simp [Op.givesPart, Op.moves, Op.borrows, h]⟩
  | split k p =>
    exact ⟨k, rfl, by simp [Op.takesMut, Op.exclusive], by simp [Op.exclusive], fun _ _ => rfl⟩
  | _ =>
    first
    | (simp [Op.owns] at ho; done)
    | simp [Op.givesMut, Op.owns] at hg

omit [Zero α] [One α] [Add α] [Mul α] in
theorem exclusive_borrows (mutable : Bool) (op : Op α) : ∀ k ∈ op.exclusive mutable,
    k ∈ op.borrows := by
  cases op with
  | block k tl d => cases mutable <;> simp [Op.exclusive, Op.borrows]
  | _ => simp [Op.exclusive, Op.borrows]

omit [Zero α] [One α] [Add α] [Mul α] in
theorem givesPart_mem {op : Op α} {part : Nat → Bool} {k : Nat} (hk : k ∈ op.moves ++ op.borrows)
    (hp : part k = true) : op.givesPart part = true := by
  have : (op.moves ++ op.borrows).any part = true := List.any_eq_true.2 ⟨k, hk, hp⟩
  cases op <;> first | exact this | rfl

theorem excl_after [Target] {cfg : Cfg} {kern : Kern α} {x : XSt α} {mutable : Bool} {op : Op α} {o : Obs α}
    {s' : St α} (X : ExclBy P x) (H' : OwnedBy P (x.t.after op s')) (ha : Admitted x.t (.run op))
    (_e : op.exec cfg kern x.t.st = .ok (o, s')) :
    ExclBy P (x.after ⟨mutable, .run op⟩ (x.t.after op s')) := by
  refine ⟨H', fun h hh g hg => ?_⟩
  obtain ⟨h1, h2, h3⟩ := leave_live hh
  have len : (x.t.after op s').st.mats.length = s'.mats.length := by simp [LSt.after, LSt.leave]
  simp only [XSt.after, len, decide_eq_true_eq] at hg ⊢
  have h3 : (x.t.after op s').life h = _ := h3
  rw [h3]
  simp only at h2 ⊢
  split at hg
  · rename_i hc
    rw [if_pos hc]
    simp only [LSt.newLife, List.mem_append, List.mem_flatMap] at hg ⊢
    rcases hg with hg | ⟨k, hk, hg⟩
    · exact .inl (exclusive_borrows mutable op g hg)
    · exact .inr ⟨k, hk, X.sub k
        (ha.1 k (moves_operands op k (List.mem_append_left _ hk))) g hg⟩
  · rename_i hc
    rw [if_neg hc] at h2 ⊢
    exact X.sub h h2 g hg

theorem Sep.run [Target] {cfg : Cfg} {kern : Kern α} {x : XSt α} {mutable : Bool} {op : Op α} {o : Obs α}
    {s' : St α} {F : Bool → BaseMatrix → Loc → Prop} {E : Prop} (X : ExclBy P x) (S : Sep F E x)
    (ha : Checked x ⟨mutable, .run op⟩) (e : op.exec cfg kern x.t.st = .ok (o, s'))
    (hbuf : ∀ p b q, F p b q → q.buf = b.data.buf)
    (hmono : ∀ m ∈ x.t.st.mats, ∀ q, foot (F true) m q → foot (F false) m q)
    (hblock : ∀ k tl d b v, op = .block k tl d → x.t.st.base? k = some b →
      b.block cfg tl d = .ok v → ∀ q, F (x.part k) v q → F (x.part k) b q)
    (hsplit : ∀ k p b v, op = .split k p → x.t.st.base? k = some b → hasSplit b = true →
      b.split_in_four_mut cfg p = .ok v → ∀ i q, F true (quad v i) q → F (x.part k) b q)
    (hpair : ∀ k p b v, op = .split k p → x.t.st.base? k = some b → hasSplit b = true →
      b.split_in_four_mut cfg p = .ok v → ∀ i j q, i ≠ j → F true (quad v i) q →
      ¬ F true (quad v j) q ∨ E) :
    Sep F E (x.after ⟨mutable, .run op⟩ (x.t.after op s')) := by
  obtain ⟨⟨hv, hl, -, hmb⟩, hread, htake⟩ := ha
  have hmv : ∀ k ∈ op.moves ++ op.borrows, (x.t.life k).live = true := fun k hk =>
    hv k (moves_operands op k hk)
  have hrd : ∀ k ∈ op.moves ++ op.borrows, Readable x k := fun k hk =>
    hread k (moves_operands op k hk)
  obtain ⟨⟨new, en, hcr⟩, hnb, hown, -, -⟩ := C73_operation cfg kern x.t.st s' op o
    (by simp [Op.step, e])
  have len : (x.t.after op s').st.mats.length = s'.mats.length := by simp [LSt.after, LSt.leave]
  have lenn : s'.mats.length = x.t.st.mats.length + new.length := by rw [en]; simp
  set y := x.after ⟨mutable, .run op⟩ (x.t.after op s') with hy
  -- what is known of old and new values
  have life : ∀ a, (y.t.life a).lenders = if x.t.st.mats.length ≤ a ∧ a < s'.mats.length then
      (x.t.newLife op).lenders else (x.t.life a).lenders := by
    intro a
    have : (y.t.life a).lenders = ((x.t.after op s').life a).lenders := rfl
    rw [this]
    simp only [LSt.after, LSt.leave]
    split <;> split <;> rfl
  have exl : ∀ a, y.excl a = if x.t.st.mats.length ≤ a ∧ a < s'.mats.length then
      op.exclusive mutable ++ op.moves.flatMap x.excl else x.excl a := by
    intro a; simp only [hy, XSt.after, len, decide_eq_true_eq]
  have wri : ∀ a, y.writable a = if x.t.st.mats.length ≤ a ∧ a < s'.mats.length then
      op.givesMut mutable else x.writable a := by
    intro a; simp only [hy, XSt.after, len, decide_eq_true_eq]
  have par : ∀ a, y.part a = if x.t.st.mats.length ≤ a ∧ a < s'.mats.length then
      op.givesPart x.part else x.part a := by
    intro a; simp only [hy, XSt.after, len, decide_eq_true_eq]
  have look : ∀ {a m}, (y.t.life a).live = true → y.t.st.mats[a]? = some m →
      a ∉ op.moves ∧ s'.mats[a]? = some m ∧
      (a < x.t.st.mats.length ∧ (x.t.life a).live = true ∧ x.t.st.mats[a]? = some m ∧
        y.part a = x.part a ∧ y.writable a = x.writable a ∨
      x.t.st.mats.length ≤ a ∧ a < s'.mats.length ∧ m ∈ new ∧ y.part a = op.givesPart x.part ∧
        y.writable a = op.givesMut mutable) := by
    intro a m hla hma
    obtain ⟨h1, h2, -⟩ := leave_live hla
    have hma : (x.t.after op s').st.mats[a]? = some m := hma
    unfold LSt.after at hma
    rw [leave_get_other h1] at hma
    simp only at hma h2
    refine ⟨h1, hma, ?_⟩
    by_cases hc : x.t.st.mats.length ≤ a ∧ a < s'.mats.length
    · right
      rw [par, wri, if_pos hc, if_pos hc]
      refine ⟨hc.1, hc.2, ?_, rfl, rfl⟩
      rw [en, List.getElem?_append_right hc.1] at hma
      exact List.mem_of_getElem? hma
    · left
      rw [if_neg hc] at h2
      have hlt := X.owned.bound a h2
      rw [par, wri, if_neg hc, if_neg hc]
      refine ⟨hlt, h2, ?_, rfl, rfl⟩
      rw [en, List.getElem?_append_left hlt] at hma
      exact hma
  have oldL : ∀ a, (x.t.life a).live = true → lendersOf y a = lendersOf x a := by
    intro a h
    have := X.owned.bound a h
    simp only [lendersOf, life]
    rw [if_neg (by omega)]
  have oldE : ∀ a, (x.t.life a).live = true → y.excl a = x.excl a := by
    intro a h
    have := X.owned.bound a h
    rw [exl, if_neg (by omega)]
  have newL : ∀ {a}, x.t.st.mats.length ≤ a → a < s'.mats.length →
      lendersOf y a = op.borrows ++ op.moves.flatMap (lendersOf x) := by
    intro a h1 h2
    simp only [lendersOf, life]
    rw [if_pos ⟨h1, h2⟩]
    rfl
  have newE : ∀ {a}, x.t.st.mats.length ≤ a → a < s'.mats.length →
      y.excl a = op.exclusive mutable ++ op.moves.flatMap x.excl := by
    intro a h1 h2
    rw [exl, if_pos ⟨h1, h2⟩]
  have upL : ∀ {g h}, (x.t.life g).live = true → Up (lendersOf x) g h → Up (lendersOf y) g h :=
    fun hg hu => up_keep (P := fun a => (x.t.life a).live = true)
      (fun a ha b hb => (X.owned.lent a ha b hb).2) oldL hg hu
  have upE : ∀ {g h}, (x.t.life g).live = true → Up x.excl g h → Up y.excl g h :=
    fun hg hu => up_keep (P := fun a => (x.t.life a).live = true)
      (fun a ha b hb => (X.owned.lent a ha b (X.sub a ha b hb)).2) oldE hg hu
  -- a new value of its own
  have fresh : op.owns = true → ∀ {m m' : Mat α} {p p' : Bool} {q : Loc} {a : Nat}, m ∈ new →
      (x.t.life a).live = true → x.t.st.mats[a]? = some m' → foot (F p) m q → foot (F p') m' q →
      False := by
    intro ho m m' p p' q a hm hla hma hq hq'
    obtain rfl := owns_done ho e
    obtain ⟨b, e3, e4⟩ := hown (by simp [Op.allocations, ho])
    obtain rfl : new = [.base b] := List.append_cancel_left (en.symm.trans e3)
    obtain rfl : m = .base b := by simpa using hm
    have h1 := hbuf _ _ _ hq
    have h2 := X.owned.stored_lt a hla m' hma q.buf (foot_storage (hbuf _) hq')
    rw [h1, e4] at h2
    simp at h2
  have view : op.owns = false → ∀ m ∈ new, ∀ q, foot (F (op.givesPart x.part)) m q →
      ∃ k ∈ op.moves ++ op.borrows, ∃ mk, x.t.st.mats[k]? = some mk ∧ foot (F (x.part k)) mk q := by
    intro ho
    obtain ⟨new', en', hf⟩ := exec_foot (part := x.part) hmono hblock hsplit e ho
    obtain rfl : new = new' := List.append_cancel_left (en.symm.trans en')
    exact hf
  intro g h mg mh q hg hh hgh hw hmg hmh hqg hqh
  obtain ⟨g1, g2, hgo | hgn⟩ := look hg hmg
  · obtain ⟨h1, h2, hho | hhn⟩ := look hh hmh
    · -- both old
      obtain ⟨-, lg, eg, pg, -⟩ := hgo
      obtain ⟨-, lh, eh, ph, wh⟩ := hho
      rw [pg] at hqg ⊢
      rw [ph] at hqh ⊢
      rw [wh] at hw
      rcases S g h mg mh q lg lh hgh hw eg eh hqg hqh with hu | hu | hu
      · exact .inl (upL lg hu)
      · exact .inr (.inl (upE lh hu))
      · exact .inr (.inr hu)
    · -- `h` is new
      obtain ⟨-, lg, eg, pg, -⟩ := hgo
      obtain ⟨bh, bh', nh, ph, wh⟩ := hhn
      rw [pg] at hqg ⊢
      rw [ph] at hqh ⊢
      rw [wh] at hw
      cases ho : op.owns with
      | true => exact (fresh ho nh lg eg hqh hqg).elim
      | false =>
        obtain ⟨k, hk, hkt, hke, hkp⟩ := givesMut_cases hw ho
        obtain ⟨k', hk', mk, ek, fk⟩ := view ho mh nh q hqh
        rw [hk, List.mem_singleton] at hk'
        subst hk'
        have hex : k' ∈ y.excl h := by rw [newE bh bh']; exact List.mem_append_left _ hke
        by_cases hgk : g = k'
        · subst hgk
          exact .inr (.inl (.single hex))
        · have lk : (x.t.life k').live = true := hmv k' (by rw [hk]; simp)
          rcases S g k' mg mk q lg lk hgk (htake k' hkt).1 eg ek hqg fk with hu | hu | hu
          · exact absurd (htake k' hkt).2.1 (X.up_lent lg hu)
          · exact .inr (.inl (.head hex (upE lk hu)))
          · exact .inr (.inr ⟨hu.1, hu.2.1, hkp _ hu.2.2⟩)
  · obtain ⟨h1, h2, hho | hhn⟩ := look hh hmh
    · -- `g` is new
      obtain ⟨bg, bg', ng, pg, -⟩ := hgn
      obtain ⟨-, lh, eh, ph, wh⟩ := hho
      rw [pg] at hqg ⊢
      rw [ph] at hqh ⊢
      rw [wh] at hw
      cases ho : op.owns with
      | true => exact (fresh ho ng lh eh hqg hqh).elim
      | false =>
        obtain ⟨k, hk, mk, ek, fk⟩ := view ho mg ng q hqg
        have lk := hmv k hk
        by_cases hhk : k = h
        · subst hhk
          have : k ∈ op.borrows := (List.mem_append.1 hk).resolve_left h1
          exact .inl (.single (by rw [newL bg bg']; exact List.mem_append_left _ this))
        · rcases S k h mk mh q lk lh hhk hw ek eh fk hqh with hu | hu | hu
          · left
            have hu := upL lk hu
            rcases List.mem_append.1 hk with hkm | hkb
            · refine up_first (fun b hb => ?_) hu
              rw [newL bg bg']
              rw [oldL k lk] at hb
              exact List.mem_append_right _ (List.mem_flatMap.2 ⟨k, hkm, hb⟩)
            · exact .head (by rw [newL bg bg']; exact List.mem_append_left _ hkb) hu
          · exact absurd (hrd k hk) (X.up_excl lh hu)
          · exact .inr (.inr ⟨hu.1, givesPart_mem hk hu.2.1, hu.2.2⟩)
    · -- both new: parts of a split
      obtain ⟨bg, bg', ng, pg, -⟩ := hgn
      obtain ⟨bh, bh', nh, ph, -⟩ := hhn
      rw [pg] at hqg ⊢
      rw [ph] at hqh ⊢
      have two : 2 ≤ new.length := by omega
      cases op with
      | split k p =>
        simp only [Op.exec, withSome] at e
        split at e
        · rename_i b hb
          split at e
          · rename_i hhs
            simp only [Out.bind_eq_ok, Out.pure_eq] at e
            obtain ⟨v, hv', e⟩ := e
            cases e
            have get : ∀ {a : Nat} {m : Mat α}, x.t.st.mats.length ≤ a →
                (x.t.st.mats ++ (List.finRange 4).map fun k => Mat.base (quad v k))[a]? = some m →
                ∃ i : Fin 4, a = x.t.st.mats.length + i ∧ m = .base (quad v i) := by
              intro a m hle hm
              rw [List.getElem?_append_right hle, List.getElem?_map, Option.map_eq_some_iff] at hm
              obtain ⟨i, hi, rfl⟩ := hm
              refine ⟨i, ?_, rfl⟩
              obtain ⟨hlt, hi⟩ := List.getElem?_eq_some_iff.1 hi
              rw [List.getElem_finRange] at hi
              subst hi
              simp only [Fin.val_cast]
              omega
            obtain ⟨i, ei, rfl⟩ := get bg g2
            obtain ⟨j, ej, rfl⟩ := get bh h2
            have hij : i ≠ j := by rintro rfl; exact hgh (ei.trans ej.symm)
            rcases hpair k p b v rfl hb hhs hv' i j q hij hqg with hn | hE
            · exact absurd hqh hn
            · exact .inr (.inr ⟨hE, rfl, rfl⟩)
          · cases e
        · cases e
      | _ =>
        exfalso
        have : new.length ≤ 1 := by
          rw [hcr]
          cases o <;> simp [Op.created, Op.creates, Op.owns]
        omega

/-! ### Steps -/

omit [Zero α] [One α] [Add α] [Mul α] in
theorem free_life {t t' : LSt α} {bs : List Nat} (h : bs.foldlM LSt.free t = some t') :
    t'.life = t.life := by
  induction bs generalizing t with
  | nil => cases h; rfl
  | cons b bs ih =>
    simp only [List.foldlM_cons, Option.bind_eq_bind, Option.bind_eq_some_iff] at h
    obtain ⟨u, h1, h2⟩ := h
    rw [ih h2]
    unfold LSt.free at h1
    split at h1
    · cases h1; rfl
    · cases h1

omit [Zero α] [One α] [Add α] [Mul α] in
theorem drop_lenders {t t' : LSt α} {hs : List Nat} (h : t.drop hs = some t') (a : Nat) :
    (t'.life a).lenders = (t.life a).lenders := by
  simp only [LSt.drop, Option.bind_eq_bind, Option.bind_eq_some_iff, Option.pure_def,
    Option.some.injEq] at h
  obtain ⟨u, h1, rfl⟩ := h
  simp only [LSt.leave, free_life h1]
  split <;> rfl

omit [Zero α] [One α] [Add α] [Mul α] in
theorem Sep.shrunk {F : Bool → BaseMatrix → Loc → Prop} {E : Prop} {x : XSt α} (S : Sep F E x)
    {t' : LSt α} (hs : Shrunk x.t t') (hl : ∀ a, (t'.life a).lenders = (x.t.life a).lenders) :
    Sep F E { x with t := t' } := by
  intro g h mg mh q hg hh hgh hw hmg hmh hqg hqh
  obtain ⟨g1, g2⟩ := hs.mats g hg
  obtain ⟨h1, h2⟩ := hs.mats h hh
  have e : lendersOf { x with t := t' } = lendersOf x := funext fun a => hl a
  rw [e]
  exact S g h mg mh q g1 h1 hgh hw (g2 ▸ hmg) (h2 ▸ hmh) hqg hqh

omit [Zero α] [One α] [Add α] [Mul α] in
theorem ExclBy.shrunk {x : XSt α} (X : ExclBy P x) {t' : LSt α} (H : OwnedBy P t') (hs : Shrunk x.t t')
    (hl : ∀ a, (t'.life a).lenders = (x.t.life a).lenders) : ExclBy P { x with t := t' } :=
  ⟨H, fun h hh g hg => by rw [hl]; exact X.sub h (hs.mats h hh).1 g hg⟩

omit [Zero α] [One α] [Add α] [Mul α] in
theorem after_same {x : XSt α} {t' : LSt α} (h : t'.st.mats.length = x.t.st.mats.length)
    (op : XOp α) : x.after op t' = { x with t := t' } := by
  unfold XSt.after
  split
  · have : ∀ a, ¬ (x.t.st.mats.length ≤ a ∧ a < t'.st.mats.length) := fun a => by omega
    simp [this]
  · rfl

/-- What a step of a program that the borrow checker admits is. -/
theorem step_cases [Target] [Kept P] {cfg : Cfg} {kern : Kern α} {x x' : XSt α} {op : XOp α} {o : Obs α}
    (X : ExclBy P x) (ha : Checked x op) (e : op.step cfg kern x = some (o, x')) :
    (∃ t', x' = { x with t := t' } ∧ Shrunk x.t t' ∧
      ∀ a, (t'.life a).lenders = (x.t.life a).lenders) ∨
    ∃ p s', op.op = .run p ∧ p.exec cfg kern x.t.st = .ok (o, s') ∧
      x' = x.after op (x.t.after p s') := by
  obtain ⟨ha, -⟩ := ha
  simp only [XOp.step, Option.map_eq_some_iff, Prod.mk.injEq] at e
  obtain ⟨⟨o', t'⟩, e, rfl, rfl⟩ := e
  have drop : ∀ {hs : List Nat} {t' : LSt α}, hs.Nodup → (∀ h ∈ hs, (x.t.life h).live = true) →
      (∀ h ∈ hs, NotLent x.t h) → x.t.drop hs = some t' → Shrunk x.t t' := by
    intro hs t' h1 h2 h3 h4
    obtain ⟨t1, h5, -, h6, -⟩ := X.owned.drop h1 h2 h3
    obtain rfl : t1 = t' := by simpa [h4] using h5.symm
    exact h6
  cases hop : op.op with
  | run p =>
    rw [hop] at ha e
    simp only [LOp.step] at e
    cases hx : p.exec cfg kern x.t.st with
    | ok y =>
      obtain ⟨o1, s'⟩ := y
      rw [hx] at e
      simp only [Option.some.injEq, Prod.mk.injEq] at e
      obtain ⟨rfl, rfl⟩ := e
      exact .inr ⟨p, s', rfl, hx, rfl⟩
    | panic =>
      rw [hx] at e
      simp only [Option.map_eq_some_iff, Prod.mk.injEq] at e
      obtain ⟨t1, e, rfl, rfl⟩ := e
      have hs := drop ha.2.2.1 (fun h hh => ha.1 h (moves_operands p h (List.mem_append_left _ hh)))
        ha.2.1 e
      exact .inl ⟨t1, after_same hs.len op, hs, drop_lenders e⟩
    | ub => rw [hx] at e; cases e
  | drop h =>
    rw [hop] at ha e
    simp only [LOp.step, Option.map_eq_some_iff, Prod.mk.injEq] at e
    obtain ⟨t1, e, rfl, rfl⟩ := e
    have hs := drop (hs := [h]) (by simp) (by simpa using ha.1) (by simpa using ha.2) e
    exact .inl ⟨t1, after_same hs.len op, hs, drop_lenders e⟩
  | dropSlice b =>
    rw [hop] at ha e
    simp only [LOp.step, Option.map_eq_some_iff, Prod.mk.injEq] at e
    obtain ⟨t1, e, rfl, rfl⟩ := e
    obtain ⟨t2, h5, -, h6, -⟩ := X.owned.dropSlice ha.1 ha.2.1 ha.2.2
    obtain rfl : t2 = t1 := by simpa [e] using h5.symm
    refine .inl ⟨t2, after_same h6.len op, h6, fun a => ?_⟩
    have := free_life (t := x.t) (bs := [b]) (t' := t2) (by simpa using e)
    rw [this]

/-- The window of a matrix, whether or not it is a part of a split. -/
def windowFoot (_ : Bool) (b : BaseMatrix) (q : Loc) : Prop := inWindow q b

/-- The elements of parts of splits, the windows of other matrices. -/
def cellFoot (part : Bool) (b : BaseMatrix) (q : Loc) : Prop :=
  if part then inCells b q else inWindow q b

/-- Windows of values are apart, except between parts of splits. -/
theorem window_step [Target] [Kept P] {cfg : Cfg} {kern : Kern α} {x x' : XSt α} {op : XOp α} {o : Obs α}
    (X : ExclBy P x) (S : Sep windowFoot True x) (ha : Checked x op)
    (e : op.step cfg kern x = some (o, x')) : Sep windowFoot True x' := by
  rcases step_cases X ha e with ⟨t', rfl, h1, h2⟩ | ⟨p, s', h1, h2, rfl⟩
  · exact S.shrunk h1 h2
  · obtain ⟨mutable, op⟩ := op
    simp only at h1
    subst h1
    exact S.run X ha h2 (fun _ b q h => h.1) (fun _ _ _ h => h)
      (fun _ _ _ _ _ _ _ h q hq => block_window h hq)
      (fun _ _ _ _ _ _ _ h i q hq => split_window h i hq)
      (fun _ _ _ _ _ _ _ _ _ _ _ _ _ => .inr trivial)

/-- Elements of values are apart. -/
theorem cell_step [Target] {cfg : Cfg} {kern : Kern α} {x x' : XSt α} {op : XOp α} {o : Obs α}
    (X : Excl x) (S : Sep cellFoot False x) (ha : Checked x op) (hp : Plain cfg x op)
    (hk : PartsKept cfg x op) (e : op.step cfg kern x = some (o, x')) :
    Sep cellFoot False x' := by
  rcases step_cases X ha e with ⟨t', rfl, h1, h2⟩ | ⟨p, s', h1, h2, rfl⟩
  · exact S.shrunk h1 h2
  · obtain ⟨mutable, op⟩ := op
    simp only at h1
    subst h1
    refine S.run X ha h2 ?_ ?_ ?_ ?_ ?_
    · intro p b q h
      unfold cellFoot at h
      split at h
      · obtain ⟨r, c, -, rfl⟩ := h; rfl
      · exact h.1
    · intro m hm q h
      exact foot_mono (fun b q hb h => inCells_window hb h) (X.owned.good m hm) h
    · rintro k tl d b v rfl hb hv q hq
      unfold cellFoot at hq ⊢
      split at hq
      · rename_i hpk
        rw [if_pos hpk]
        obtain ⟨i, j, hs, rfl⟩ := hq
        exact hk hpk b v hb hv i j hs
      · rename_i hpk
        rw [if_neg hpk]
        exact block_window hv hq
    · rintro k p b v rfl hb hhs hv i q hq
      have hgood := X.owned.inv.base hb
      have := (split_cells hgood hhs (hp.2.2.imp id fun h => h b hb) hv).1 i q hq
      unfold cellFoot
      split
      · exact this
      · exact inCells_window hgood this
    · rintro k p b v rfl hb hhs hv i j q hij hq
      exact .inl ((split_cells (X.owned.inv.base hb) hhs (hp.2.2.imp id fun h => h b hb) hv).2
        i j q hij hq)

omit [Zero α] [One α] [Add α] [Mul α] in
/-- Operands of a product whose windows overlap are parts of splits. -/
theorem overlap_parts {x : XSt α} {mutable : Bool} {alpha beta : α} {a b c : Nat} (X : ExclBy P x)
    (S : Sep windowFoot True x) (ha : Checked x ⟨mutable, .run (.matmul alpha a b beta c)⟩)
    {k : Nat} (hk : k ∈ [a, b]) {mk mc : BaseMatrix} (hmk : x.t.st.base? k = some mk)
    (hmc : x.t.st.base? c = some mc) {q : Loc} (hq : inWindow q mc) (hqk : inWindow q mk) :
    x.part k = true ∧ x.part c = true := by
  obtain ⟨⟨hv, -⟩, hr, ht⟩ := ha
  obtain ⟨hw, hl, hc⟩ := ht c (by simp [Op.takesMut, Op.writesTo])
  have hkc : k ≠ c := by
    rintro rfl
    have : ([a, b, k] : List Nat).count k = 1 := hc
    simp only [List.mem_cons, List.not_mem_nil, or_false] at hk
    rcases hk with rfl | rfl <;> simp only [List.count_cons, List.count_nil] at this <;>
      (repeat' split at this) <;> simp_all
  have hko : k ∈ (Op.matmul alpha a b beta c : Op α).operands := by
    simp only [List.mem_cons, List.not_mem_nil, or_false] at hk
    rcases hk with rfl | rfl <;> simp [Op.operands]
  have lk := hv k hko
  have lc : (x.t.life c).live = true := hv c (by simp [Op.operands])
  rcases S k c (.base mk) (.base mc) q lk lc hkc hw (base?_some hmk) (base?_some hmc) hqk hq with
    hu | hu | hu
  · exact absurd hl (X.up_lent lk hu)
  · exact absurd (hr k hko) (X.up_excl lc hu)
  · exact hu.2

omit [Zero α] [One α] [Add α] [Mul α] in
/-- The borrow checker keeps the operands of `matmul` apart. -/
theorem no_overlap [Target] {x : XSt α} {mutable : Bool} {p : Op α} (X : Excl x)
    (S : Sep windowFoot True x) (ha : Checked x ⟨mutable, .run p⟩)
    (hp : PartsApart x ⟨mutable, .run p⟩) : NoOverlap x.t.st p := by
  cases p with
  | matmul alpha a b beta c =>
    intro ma mb mc hma hmb hmc q hq
    refine ⟨fun hqa => ?_, fun hqb => ?_⟩
    · obtain ⟨h1, h2⟩ := overlap_parts X S ha (by simp) hma hmc hq hqa
      exact (hp mc hmc h2).1 ma hma h1 q hq hqa
    · obtain ⟨h1, h2⟩ := overlap_parts X S ha (by simp) hmb hmc hq hqb
      exact (hp mc hmc h2).2 mb hmb h1 q hq hqb
  | _ => trivial

theorem exclusive_step_by [Target] [Kept P] {cfg : Cfg} {kern : Kern α} {x : XSt α} {op : XOp α}
    (X : ExclBy P x)
    (S : Sep windowFoot True x) (ha : Checked x op)
    (hc : ∀ p, op.op = .run p → p.exec cfg kern x.t.st = .panic ∨
      ∃ o s', p.exec cfg kern x.t.st = .ok (o, s') ∧ ∀ m ∈ s'.mats, P s'.mem m) :
    ∃ o x', op.step cfg kern x = some (o, x') ∧ ExclBy P x' ∧ Sep windowFoot True x' := by
  obtain ⟨o, t', e, H, -⟩ := life_step_by (kern := kern) X.owned ha.1 hc
  have e' : op.step cfg kern x = some (o, x.after op t') := by simp [XOp.step, e]
  refine ⟨o, _, e', ?_, window_step X S ha e'⟩
  rcases step_cases X ha e' with ⟨t1, h0, h1, h2⟩ | ⟨p, s', h1, h2, h3⟩
  · rw [h0]
    refine X.shrunk ?_ h1 h2
    have : (x.after op t').t = t1 := by rw [h0]
    rw [← this]
    have : (x.after op t').t = t' := by unfold XSt.after; split <;> rfl
    rw [this]
    exact H
  · rw [h3]
    have : (x.after op t').t = t' := by unfold XSt.after; split <;> rfl
    have h4 : (x.after op (x.t.after p s')).t = x.t.after p s' := by unfold XSt.after; split <;> rfl
    rw [h3, h4] at this
    subst this
    obtain ⟨mutable, op⟩ := op
    simp only at h1
    subst h1
    exact excl_after X H ha.1 h2

theorem exclusive_step_of [Target] {cfg : Cfg} {kern : Kern α} {x : XSt α} {op : XOp α} (X : Excl x)
    (S : Sep windowFoot True x) (ha : Checked x op)
    (hc : ∀ p, op.op = .run p → StepOK (p.exec cfg kern x.t.st) x.t.st) :
    ∃ o x', op.step cfg kern x = some (o, x') ∧ Excl x' ∧ Sep windowFoot True x' :=
  exclusive_step_by X S ha fun p hp => (hc p hp).imp id fun ⟨o, s', e, hi, _⟩ => ⟨o, s', e, hi⟩

theorem exclusive_step [Target] {cfg : Cfg} {kern : Kern α} {x : XSt α} {op : XOp α} (X : Excl x)
    (S : Sep windowFoot True x) (ha : Checked x op) (hp : Plain cfg x op) (hs : PartsApart x op) :
    ∃ o x', op.step cfg kern x = some (o, x') ∧ Excl x' ∧ Sep windowFoot True x' := by
  refine exclusive_step_of X S ha fun p h => ?_
  obtain ⟨mutable, op⟩ := op
  obtain rfl : op = .run p := h
  exact step_good cfg kern x.t.st X.owned.inv p hp.1 (no_overlap X S ha hs) hp.2.1 hp.2.2

/-! ### What writing leaves alone -/

omit [Zero α] [One α] [Add α] [Mul α] in
theorem exec_frame [Target] {cfg : Cfg} {b : BaseMatrix} {mem : Mem α} (h : Good b mem) {op : ArrOp α}
    {y : Resp α × Mem α} (e : Spec.exec cfg b mem op = .ok y) : FrameOf b mem y.2 := by
  by_cases hne : Nonempty α
  · obtain ⟨A, hA⟩ := represents_some h.sound
    obtain ⟨mem', e', -, -, hf⟩ := step_refines cfg b mem A h.sound h.noOverlap hA op
    unfold Spec.step at e'
    rw [e] at e'
    obtain rfl : y = _ := by simpa using e'
    exact hf
  · have hn : ∀ (m : Mem α) q, m.get? q = none := by
      intro m q
      cases hq : m.get? q with
      | none => rfl
      | some v => exact absurd ⟨v⟩ hne
    have ho := exec_only e
    exact ⟨ho.size, ho.nbufs, fun q _ => by rw [hn, hn]⟩

/-- Element by element, only elements are written. -/
theorem write_cells [Target] {cfg : Cfg} {kern : Kern α} {s s' : St α} {op : Op α} {o : Obs α} {h : Nat}
    {b : BaseMatrix} (hi : Inv s) (e : op.exec cfg kern s = .ok (o, s'))
    (hw : op.writesTo = some h) (hb : s.base? h = some b)
    (h1 : ∀ k f l xs, op ≠ .writeSlice k f l xs) (h2 : ∀ x a b y c, op ≠ .matmul x a b y c)
    {q : Loc} (hq : ¬ inCells b q) : s'.mem.get? q = s.mem.get? q := by
  have hg := hi.base hb
  have other : ∀ {mem' : Mem α}, FrameOf b s.mem mem' → mem'.get? q = s.mem.get? q :=
    fun hf => hf.other q fun r c hs he => hq ⟨r, c, hs, he⟩
  cases op with
  | element k a =>
    obtain rfl : k = h := by cases a <;> simp [Op.writesTo] at hw <;> exact hw
    simp only [Op.exec, hb, withSome, Out.bind_eq_ok, Out.pure_eq] at e
    obtain ⟨y, hy, e⟩ := e
    cases e
    exact other (exec_frame hg hy)
  | forEach k f =>
    obtain rfl : k = h := by simpa [Op.writesTo] using hw
    obtain ⟨mem', st, e', -, -, hf⟩ := hg.sound.for_each hg.noOverlap cfg
      (fun (σ : List α) v => (σ ++ [v], f σ v)) []
    simp only [Op.exec, hb, withSome, e', Out.bind_ok] at e
    cases e
    exact other hf
  | fillRand k draw =>
    obtain rfl : k = h := by simpa [Op.writesTo] using hw
    obtain ⟨mem', st, e', -, -, hf⟩ := hg.sound.for_each hg.noOverlap cfg
      (fun rng (_ : α) => let r := (fun k => (draw k, k + 1)) rng; (r.2, r.1)) 0
    simp only [Op.exec, hb, withSome, BaseMatrix.fill_from_rand, e', Out.bind_ok] at e
    cases e
    exact other hf
  | writeSlice k f l xs => exact absurd rfl (h1 k f l xs)
  | matmul x a b y c => exact absurd rfl (h2 x a b y c)
  | _ => simp [Op.writesTo] at hw

omit [Zero α] [One α] in
theorem matValue_foot [Target] {mem mem' : Mem α} {m : Mat α} (h : MatOK mem m)
    (hm : ∀ q, foot inCells m q → mem'.get? q = mem.get? q) {r c : Nat}
    (hs : Stored m.layout r c) : matValue mem' r c m = matValue mem r c m := by
  induction m with
  | base b => exact hm _ ⟨r, c, hs, rfl⟩
  | ref m ih => exact ih h hm hs
  | addition a b l iha ihb =>
    obtain ⟨ha, hb, hd, hk, rfl⟩ := h
    simp only [Mat.layout] at hs
    rw [index_layout_stored] at hs
    simp only [matValue]
    rw [iha ha (fun q hq => hm q (.inl hq)) hs,
      ihb hb (fun q hq => hm q (.inr hq)) ((stored_same hk hd r c).1 hs)]
  | scalarMult m s ih =>
    simp only [matValue]
    rw [ih h hm hs]

/-- A step changes no element of a value that may be read, except of the one it writes to. -/
theorem step_leaves [Target] {cfg : Cfg} {kern : Kern α} {x x' : XSt α} {op : XOp α} {o : Obs α}
    (X : Excl x) (X' : Excl x') (S : Sep cellFoot False x) (ha : Checked x op)
    (hk : PartsKept cfg x op) (e : op.step cfg kern x = some (o, x')) {g : Nat} {m : Mat α}
    (hg : (x.t.life g).live = true) (hg' : (x'.t.life g).live = true)
    (hm : x.t.st.mats[g]? = some m) (hr : Readable x g)
    (hw : ∀ p, op.op = .run p → p.writesTo ≠ some g) :
    x'.t.st.mats[g]? = some m ∧ ∀ r c, Stored m.layout r c →
      m.get cfg x'.t.st.mem r c = m.get cfg x.t.st.mem r c ∧
      m.get1d cfg x'.t.st.mem (index m.layout r c) = m.get1d cfg x.t.st.mem (index m.layout r c) := by
  suffices fin : x'.t.st.mats[g]? = some m ∧
      ∀ q, foot inCells m q → x'.t.st.mem.get? q = x.t.st.mem.get? q by
    obtain ⟨h1, h2⟩ := fin
    refine ⟨h1, fun r c hs => ?_⟩
    have ok := (X.owned.inv.get hm).ok
    have ok' := (X'.owned.inv.get h1).ok
    obtain ⟨v, hv, -⟩ := ok.unchecked cfg hs
    have g1 := ok.get cfg hs hv
    have g2 := ok'.get cfg hs ((matValue_foot ok h2 hs).trans hv)
    exact ⟨g2.1.trans g1.1.symm, g2.2.trans g1.2.symm⟩
  have buf : ∀ q, foot inCells m q → q.buf ∈ storage m := fun q hq =>
    foot_storage (F := inCells) (fun b q h => by obtain ⟨r, c, -, rfl⟩ := h; rfl) hq
  rcases step_cases X ha e with ⟨t', rfl, h1, h2⟩ | ⟨p, s', h1, h2, rfl⟩
  · have hm' := (h1.mats g hg').2.trans hm
    refine ⟨hm', fun q hq => ?_⟩
    have := X'.owned.stored g hg' m hm' q.buf (buf q hq)
    unfold Mem.get?
    rw [(h1.bufs q.buf this).2]
  · obtain ⟨mutable, op⟩ := op
    simp only at h1
    subst h1
    obtain ⟨⟨new, en, -⟩, -, -, -, hother⟩ := C73_operation cfg kern x.t.st s' p o
      (by simp [Op.step, h2])
    obtain ⟨g1, -, -⟩ := leave_live hg'
    have hlt := X.owned.bound g hg
    refine ⟨?_, fun q hq => ?_⟩
    · show (x.t.after p s').st.mats[g]? = some m
      unfold LSt.after
      rw [leave_get_other g1]
      simp only [en, List.getElem?_append_left hlt, hm]
    · show s'.mem.get? q = x.t.st.mem.get? q
      have hqb : q.buf < x.t.st.mem.bufs.length := X.owned.stored_lt g hg m hm q.buf (buf q hq)
      have hq' : foot (cellFoot (x.part g)) m q := by
        refine foot_mono (mem := x.t.st.mem) ?_ (X.owned.inv.get hm) hq
        intro b q hb h
        unfold cellFoot
        split
        · exact h
        · exact inCells_window hb h
      obtain ⟨⟨hv, -⟩, -, htake⟩ := ha
      have sep : ∀ h b, p.writesTo = some h → x.t.st.base? h = some b →
          ¬ cellFoot (x.part h) b q := by
        intro h b hwh hb hqh
        obtain ⟨w1, w2, -⟩ := htake h (by simp [Op.takesMut, hwh])
        have hgh : g ≠ h := by rintro rfl; exact hw p rfl hwh
        have lh : (x.t.life h).live = true := hv h (by
          cases p with
          | element k a =>
            obtain rfl : k = h := by cases a <;> simp [Op.writesTo] at hwh <;> exact hwh
            simp [Op.operands]
          | _ => simp [Op.writesTo] at hwh <;> simp [Op.operands, hwh])
        rcases S g h m (.base b) q hg lh hgh w1 hm (base?_some hb) hq' hqh with hu | hu | hu
        · exact X.up_lent hg hu w2
        · exact X.up_excl lh hu hr
        · exact hu.1
      by_cases hpart : ∃ h b, p.writesTo = some h ∧ x.t.st.base? h = some b ∧ x.part h = true
      · obtain ⟨h, b, hwh, hb, hph⟩ := hpart
        have := sep h b hwh hb
        rw [cellFoot, if_pos hph] at this
        refine write_cells X.owned.good h2 hwh hb ?_ ?_ this
        · rintro k f l xs rfl
          have hk : x.part k = false := hk
          obtain rfl : k = h := by simpa [Op.writesTo] using hwh
          rw [hph] at hk
          cases hk
        · rintro y a b' z c rfl
          have hk : x.part c = false := hk
          obtain rfl : c = h := by simpa [Op.writesTo] using hwh
          rw [hph] at hk
          cases hk
      · refine hother q hqb fun h b hwh hb => ?_
        have := sep h b hwh hb
        have hph : ¬ x.part h = true := fun hph => hpart ⟨h, b, hwh, hb, hph⟩
        rwa [cellFoot, if_neg hph] at this

/-! ### C77 -/

omit [Zero α] [One α] [Add α] [Mul α] in
theorem excl_init : ExclBy P (XSt.init : XSt α) :=
  ⟨owned_init, fun h hh => by simp [XSt.init, LSt.init] at hh⟩

omit [Zero α] [One α] [Add α] [Mul α] in
theorem sep_init (F : Bool → BaseMatrix → Loc → Prop) (E : Prop) : Sep F E (XSt.init : XSt α) :=
  fun g h _ _ _ hg => by simp [XSt.init, LSt.init] at hg

theorem exclusive_run [Target] {cfg : Cfg} {kern : Kern α} {x : XSt α} {ops : List (XOp α)} (X : Excl x)
    (S : Sep windowFoot True x)
    (h : AlongExclusive cfg kern (fun x op => Checked x op ∧ Plain cfg x op ∧ PartsApart x op) x
      ops) :
    ∃ os x', runExclusive cfg kern x ops = some (os, x') ∧ os.length = ops.length ∧ Excl x' ∧
      Sep windowFoot True x' := by
  induction ops generalizing x with
  | nil => exact ⟨[], x, rfl, rfl, X, S⟩
  | cons op ops ih =>
    obtain ⟨⟨h1, h2, h3⟩, h4⟩ := h
    obtain ⟨o, x1, e1, X1, S1⟩ := exclusive_step (kern := kern) X S h1 h2 h3
    obtain ⟨os, x2, e2, l2, X2, S2⟩ := ih X1 S1 (h4 o x1 e1)
    exact ⟨o :: os, x2, by simp [runExclusive, e1, e2], by simp [l2], X2, S2⟩

theorem cells_run [Target] {cfg : Cfg} {kern : Kern α} {x x' : XSt α} {ops : List (XOp α)}
    {os : List (Obs α)} (X : Excl x) (S : Sep windowFoot True x) (C : Sep cellFoot False x)
    (h : AlongExclusive cfg kern (fun x op => Checked x op ∧ Plain cfg x op ∧ PartsApart x op ∧
      PartsKept cfg x op) x ops) (e : runExclusive cfg kern x ops = some (os, x')) :
    Excl x' ∧ Sep windowFoot True x' ∧ Sep cellFoot False x' := by
  induction ops generalizing x os with
  | nil =>
    simp only [runExclusive, Option.some.injEq, Prod.mk.injEq] at e
    obtain ⟨rfl, rfl⟩ := e
    exact ⟨X, S, C⟩
  | cons op ops ih =>
    obtain ⟨⟨h1, h2, h3, h4⟩, h5⟩ := h
    simp only [runExclusive, Option.bind_eq_bind, Option.bind_eq_some_iff, Option.pure_def,
      Option.some.injEq, Prod.mk.injEq] at e
    obtain ⟨⟨o, x1⟩, e1, ⟨os1, x2⟩, e2, rfl, rfl⟩ := e
    obtain ⟨o', x1', e1', X1, S1⟩ := exclusive_step (kern := kern) X S h1 h2 h3
    obtain ⟨rfl, rfl⟩ : o = o' ∧ x1 = x1' := by simpa [e1] using e1'
    exact ih X1 S1 (cell_step X C h1 h2 h4 e1) (h5 o x1 e1) e2

/-- **C77, partial**, no undefined behaviour: the borrow checker takes the place of the condition of
C50 that the operands of a product do not overlap, except for products of parts of splits into parts
of splits. Missing: those (`C77_undefined_false`) and what C50 misses. -/
theorem C77_no_undefined_behaviour_partial [Target] (cfg : Cfg) (kern : Kern α) (ops : List (XOp α))
    (h : AlongExclusive cfg kern (fun x op => Checked x op ∧ Plain cfg x op ∧ PartsApart x op)
      XSt.init ops) :
    ∃ os x, runExclusive cfg kern XSt.init ops = some (os, x) ∧ os.length = ops.length ∧
      Accessible cfg x.t.st := by
  obtain ⟨os, x, e, l, X, -⟩ := exclusive_run excl_init (sep_init _ _) h
  exact ⟨os, x, e, l, X.owned.inv.accessible cfg⟩

omit [Zero α] [One α] [Add α] [Mul α] in
/-- The kernel's idea of two good matrices overlaps only where their windows do. -/
theorem kernel_window [Target] {mem : Mem α} {a b : BaseMatrix} (ha : Good a mem) (hb : Good b mem)
    (hta : NotTriangular a.layout) (htb : NotTriangular b.layout) (h : ¬ KernelApart a b) :
    ∃ q, inWindow q a ∧ inWindow q b := by
  have hin : ∀ x : BaseMatrix, Good x mem → NotTriangular x.layout → ∀ i j, i < x.layout.dim.1 →
      j < x.layout.dim.2 → inWindow (seen x i j) x := by
    intro x hx ht i j hi hj
    have := (hx.sound.seen_ok ht hx.noOverlap).1.inside i j hi hj
    exact ⟨rfl, by simp only [seen]; omega, by simp only [seen]; omega⟩
  simp only [KernelApart, not_forall, not_not] at h
  obtain ⟨i, j, i', j', h1, h2, h3, h4, e⟩ := h
  exact ⟨_, hin a ha hta i j h1 h2, e ▸ hin b hb htb i' j' h3 h4⟩

/-- The operation multiplies parts of splits, of compatible dimensions, into a part of a split that
the kernel confuses with one of them. -/
def AsksAliasedParts (x : XSt α) : Op α → Prop
  | .matmul _ a b _ c => ∃ ma mb mc, x.t.st.base? a = some ma ∧ x.t.st.base? b = some mb ∧
      x.t.st.base? c = some mc ∧ matmulImpl ma mb mc = true ∧ NotTriangular ma.layout ∧
      NotTriangular mb.layout ∧ NotTriangular mc.layout ∧
      Compatible ma.layout mb.layout mc.layout ∧ x.part c = true ∧
      (x.part a = true ∧ ¬ KernelApart mc ma ∨ x.part b = true ∧ ¬ KernelApart mc mb)
  | _ => False

omit [Zero α] [One α] [Add α] [Mul α] in
theorem aliased_parts_iff [Target] {x : XSt α} {mutable : Bool} {p : Op α} (X : Excl x)
    (S : Sep windowFoot True x) (ha : Checked x ⟨mutable, .run p⟩) :
    AsksAliasedProduct x.t.st p ↔ AsksAliasedParts x p := by
  cases p with
  | matmul alpha a b beta c =>
    constructor
    · rintro ⟨ma, mb, mc, e1, e2, e3, h1, t1, t2, t3, hd, hk⟩
      have g := X.owned.inv
      refine ⟨ma, mb, mc, e1, e2, e3, h1, t1, t2, t3, hd, ?_⟩
      rcases hk with hk | hk
      · obtain ⟨q, hq, hq'⟩ := kernel_window (g.base e3) (g.base e1) t3 t1 hk
        obtain ⟨h2, h3⟩ := overlap_parts X S ha (by simp) e1 e3 hq hq'
        exact ⟨h3, .inl ⟨h2, hk⟩⟩
      · obtain ⟨q, hq, hq'⟩ := kernel_window (g.base e3) (g.base e2) t3 t2 hk
        obtain ⟨h2, h3⟩ := overlap_parts X S ha (by simp) e2 e3 hq hq'
        exact ⟨h3, .inr ⟨h2, hk⟩⟩
    · rintro ⟨ma, mb, mc, e1, e2, e3, h1, t1, t2, t3, hd, -, hk⟩
      exact ⟨ma, mb, mc, e1, e2, e3, h1, t1, t2, t3, hd, hk.imp And.right And.right⟩
  | _ => exact Iff.rfl

/-- One step of a program that the borrow checker accepts. -/
theorem exclusive_step_exact [Target] {cfg : Cfg} (hc : cfg.overflowChecks = true) {kern : Kern α}
    {x : XSt α} {op : XOp α} (X : Excl x) (S : Sep windowFoot True x) (ha : Checked x op)
    (hn : ∀ p, op.op = .run p → NoStrides p) :
    (op.step cfg kern x = none ∧
      ∃ p, op.op = .run p ∧ (AsksBadCorner x.t.st p ∨ AsksAliasedParts x p)) ∨
    ((∀ p, op.op = .run p → ¬ (AsksBadCorner x.t.st p ∨ AsksAliasedParts x p)) ∧
      ∃ o x', op.step cfg kern x = some (o, x') ∧ Excl x' ∧ Sep windowFoot True x') := by
  obtain ⟨mutable, op⟩ := op
  cases op with
  | run p =>
    have hu : AsksUndefined x.t.st p ↔ AsksBadCorner x.t.st p ∨ AsksAliasedParts x p :=
      or_congr Iff.rfl (aliased_parts_iff X S ha)
    rcases step_exact cfg hc kern x.t.st X.owned.inv p (hn p rfl) with ⟨e, h⟩ | ⟨h, e⟩
    · exact .inl ⟨by simp [XOp.step, LOp.step, e], p, rfl, hu.1 h⟩
    · refine .inr ⟨fun p' hp' => ?_, exclusive_step_of X S ha fun p' hp' => ?_⟩
      · obtain rfl : p = p' := by simpa using hp'
        exact fun h' => h (hu.2 h')
      · obtain rfl : p = p' := by simpa using hp'
        exact e
  | drop k => exact .inr ⟨by simp, exclusive_step_of X S ha (by simp)⟩
  | dropSlice k => exact .inr ⟨by simp, exclusive_step_of X S ha (by simp)⟩

theorem exclusive_run_exact [Target] {cfg : Cfg} (hc : cfg.overflowChecks = true) {kern : Kern α}
    {x : XSt α} {ops : List (XOp α)} (X : Excl x) (S : Sep windowFoot True x)
    (h : AlongExclusive cfg kern (fun x op => Checked x op ∧ ∀ p, op.op = .run p → NoStrides p) x
      ops) :
    (runExclusive cfg kern x ops = none ↔
      ∃ pre op p post os y, ops = pre ++ op :: post ∧ runExclusive cfg kern x pre = some (os, y) ∧
        op.op = .run p ∧ (AsksBadCorner y.t.st p ∨ AsksAliasedParts y p)) ∧
    ∀ os y, runExclusive cfg kern x ops = some (os, y) → os.length = ops.length ∧ Excl y := by
  induction ops generalizing x with
  | nil =>
    refine ⟨⟨fun h => by simp [runExclusive] at h, ?_⟩, ?_⟩
    · rintro ⟨pre, op, p, post, os, y, h, -⟩
      simp at h
    · intro os y he
      simp only [runExclusive, Option.some.injEq, Prod.mk.injEq] at he
      obtain ⟨rfl, rfl⟩ := he
      exact ⟨rfl, X⟩
  | cons op ops ih =>
    obtain ⟨⟨h1, h2⟩, hr⟩ := h
    rcases exclusive_step_exact hc (kern := kern) X S h1 h2 with ⟨e, p, hp, hb⟩ | ⟨hnb, o, x1, e, X1, S1⟩
    · have hn : runExclusive cfg kern x (op :: ops) = none := by simp [runExclusive, e]
      rw [hn]
      exact ⟨⟨fun _ => ⟨[], op, p, ops, [], x, rfl, rfl, hp, hb⟩, fun _ => rfl⟩,
        fun _ _ h => by simp at h⟩
    · obtain ⟨ih1, ih2⟩ := ih X1 S1 (hr o x1 e)
      have hrun : ∀ l, runExclusive cfg kern x (op :: l) =
          (runExclusive cfg kern x1 l).bind fun y => some (o :: y.1, y.2) := by
        intro l
        simp only [runExclusive, e, Option.bind_eq_bind, Option.bind_some]
        rfl
      constructor
      · rw [hrun, Option.bind_eq_none_iff]
        constructor
        · intro hn
          have hn' : runExclusive cfg kern x1 ops = none := by
            cases hx : runExclusive cfg kern x1 ops with
            | none => rfl
            | some y => simpa using hn y hx
          obtain ⟨pre, op', p, post, os, y, h3, h4, h5⟩ := ih1.1 hn'
          exact ⟨op :: pre, op', p, post, o :: os, y, by rw [h3]; rfl, by rw [hrun, h4]; rfl, h5⟩
        · rintro ⟨pre, op', p, post, os, y, h3, h4, h5, h6⟩
          cases pre with
          | nil =>
            obtain ⟨rfl, -⟩ := by simpa using h3
            simp only [runExclusive, Option.some.injEq, Prod.mk.injEq] at h4
            obtain ⟨-, rfl⟩ := h4
            exact absurd h6 (hnb p h5)
          | cons op0 pre =>
            obtain ⟨rfl, h3'⟩ := List.cons.inj h3
            rw [hrun] at h4
            obtain ⟨y', h7, h8⟩ := Option.bind_eq_some_iff.1 h4
            simp only [Option.some.injEq, Prod.mk.injEq] at h8
            have hn' := ih1.2 ⟨pre, op', p, post, y'.1, y'.2, h3', h7, h5, by rw [h8.2]; exact h6⟩
            intro z hz
            rw [hn'] at hz; simp at hz
      · intro os y he
        rw [hrun] at he
        obtain ⟨y', h6, h7⟩ := Option.bind_eq_some_iff.1 he
        simp only [Option.some.injEq, Prod.mk.injEq] at h7
        obtain ⟨h8, h9⟩ := ih2 y'.1 y'.2 h6
        rw [← h7.1, ← h7.2]
        exact ⟨by simp [h8], h9⟩

/-- **C77, exactly**, no undefined behaviour: with overflow checks, a program that the borrow checker
accepts and that gives no arbitrary strides to `from_data` gets to undefined behaviour exactly if it
asks for an empty block at a bad corner or multiplies parts of a split into a part of a split that
the kernel confuses with one of them. -/
theorem C77_exact [Target] (cfg : Cfg) (kern : Kern α) (ops : List (XOp α))
    (hc : cfg.overflowChecks = true)
    (h : AlongExclusive cfg kern (fun x op => Checked x op ∧ ∀ p, op.op = .run p → NoStrides p)
      XSt.init ops) :
    (runExclusive cfg kern XSt.init ops = none ↔
      ∃ pre op p post os x, ops = pre ++ op :: post ∧
        runExclusive cfg kern XSt.init pre = some (os, x) ∧ op.op = .run p ∧
        (AsksBadCorner x.t.st p ∨ AsksAliasedParts x p)) ∧
    ∀ os x, runExclusive cfg kern XSt.init ops = some (os, x) →
      os.length = ops.length ∧ Accessible cfg x.t.st := by
  obtain ⟨h1, h2⟩ := exclusive_run_exact hc excl_init (sep_init _ _) h
  exact ⟨h1, fun os x e => ⟨(h2 os x e).1, (h2 os x e).2.owned.inv.accessible cfg⟩⟩

/-- **C77, partial**, shared or mutable: whatever a program does with one value changes no element of
any other value that it may still read. Missing: programs that write to parts of splits by
`get_slice_mut` or `matmul`, or through blocks of parts that do not show elements of the part
(`C77_exclusive_false`). -/
theorem C77_exclusive_partial [Target] (cfg : Cfg) (kern : Kern α) (ops : List (XOp α))
    (h : AlongExclusive cfg kern (fun x op => Checked x op ∧ Plain cfg x op ∧ PartsApart x op ∧
      PartsKept cfg x op) XSt.init ops)
    {os : List (Obs α)} {x : XSt α} (e : runExclusive cfg kern XSt.init ops = some (os, x))
    (op : XOp α) (ha : Checked x op) (hp : Plain cfg x op) (hs : PartsApart x op)
    (hk : PartsKept cfg x op) :
    ∃ o x', op.step cfg kern x = some (o, x') ∧ ∀ g m, (x.t.life g).live = true →
      (x'.t.life g).live = true → x.t.st.mats[g]? = some m → Readable x g →
      (∀ p, op.op = .run p → p.writesTo ≠ some g) →
      x'.t.st.mats[g]? = some m ∧ ∀ r c, Stored m.layout r c →
        m.get cfg x'.t.st.mem r c = m.get cfg x.t.st.mem r c ∧
        m.get1d cfg x'.t.st.mem (index m.layout r c) =
          m.get1d cfg x.t.st.mem (index m.layout r c) := by
  obtain ⟨X, S, C⟩ := cells_run excl_init (sep_init _ _) (sep_init _ _) h e
  obtain ⟨o, x', e', X', -⟩ := exclusive_step (kern := kern) X S ha hp hs
  exact ⟨o, x', e', fun g m hg hg' hm hr hw =>
    step_leaves X X' C ha hk e' hg hg' hm hr hw⟩

end

/-- The full statement of C77, no undefined behaviour: for programs without arbitrary strides, empty
blocks and wrapping sizes. -/
def C77_undefined_statement [Target] : Prop :=
  ∀ ops : List (XOp Int), AlongExclusive dbg exactKern (fun x op => Checked x op ∧ Plain dbg x op)
    XSt.init ops → (runExclusive dbg exactKern XSt.init ops).isSome = true

/-- The full statement of C77, shared or mutable. -/
def C77_exclusive_statement [Target] : Prop :=
  ∀ (ops : List (XOp Int)) os x, AlongExclusive dbg exactKern
    (fun x op => Checked x op ∧ Plain dbg x op) XSt.init ops →
    runExclusive dbg exactKern XSt.init ops = some (os, x) →
    ∀ op o x', Checked x op → Plain dbg x op → op.step dbg exactKern x = some (o, x') →
    ∀ g m, (x.t.life g).live = true → x.t.st.mats[g]? = some m → Readable x g →
    (∀ p, op.op = .run p → p.writesTo ≠ some g) →
    ∀ r c, Stored m.layout r c → m.get dbg x'.t.st.mem r c = m.get dbg x.t.st.mem r c

/-! ### Programs -/

/-- `Checked` and `Plain`, decided. -/
def checkX (x : XSt Int) (op : XOp Int) : Bool :=
  match op.op with
  | .run o => decide (∀ h ∈ o.operands, (x.t.life h).live = true) &&
      decide (∀ h ∈ o.moves, ∀ g, g < x.t.st.mats.length → (x.t.life g).live = true →
        h ∉ (x.t.life g).lenders) && decide o.moves.Nodup &&
      decide (∀ h ∈ o.moves, h ∉ o.borrows) &&
      decide (∀ h ∈ o.operands, ∀ g, g < x.t.st.mats.length → (x.t.life g).live = true →
        h ∉ x.excl g) &&
      decide (∀ h ∈ o.takesMut op.mutable, x.writable h = true ∧
        (∀ g, g < x.t.st.mats.length → (x.t.life g).live = true → h ∉ (x.t.life g).lenders) ∧
        o.operands.count h = 1) &&
      (match o with
        | .fromSlice _ _ _ l => isBaseLayout l
        | .fromVector _ _ _ l => isBaseLayout l
        | .block _ _ d => decide (1 ≤ d.1 ∧ 1 ≤ d.2)
        | _ => true)
  | o => checkOp x.t o

/-- No product is put into a part of a split. -/
def checkApart (x : XSt Int) (op : XOp Int) : Bool :=
  match op.op with
  | .run (.matmul _ _ _ _ c) => !x.part c
  | _ => true

/-- Parts of splits are not used in a way that needs a closer look. -/
def checkParts (x : XSt Int) (op : XOp Int) : Bool :=
  match op.op with
  | .run (.writeSlice h _ _ _) => !x.part h
  | .run (.matmul _ _ _ _ c) => !x.part c
  | .run (.block h _ _) => !x.part h
  | _ => true

def checkRunX [Target] (check : XSt Int → XOp Int → Bool) : XSt Int → List (XOp Int) → Bool
  | _, [] => true
  | x, op :: ops => checkX x op && check x op && match op.step dbg exactKern x with
    | some (_, x') => checkRunX check x' ops
    | none => false

theorem checkX_sound [Target] {x : XSt Int} (X : Excl x) {op : XOp Int} (h : checkX x op = true) :
    Checked x op ∧ Plain dbg x op := by
  obtain ⟨mutable, op⟩ := op
  have H := X.owned.bound
  cases op with
  | run op =>
    simp only [checkX, Bool.and_eq_true, decide_eq_true_eq] at h
    obtain ⟨⟨⟨⟨⟨⟨h1, h2⟩, h3⟩, h4⟩, h5⟩, h6⟩, h7⟩ := h
    refine ⟨⟨⟨h1, fun h hh g hg => h2 h hh g (H g hg) hg, h3, h4⟩,
      fun h hh g hg => h5 h hh g (H g hg) hg, fun h hh => ⟨(h6 h hh).1,
        fun g hg => (h6 h hh).2.1 g (H g hg) hg, (h6 h hh).2.2⟩⟩, ?_⟩
    cases op <;> simp at h7 <;> simp [Plain, NoStrides, NoEmptyBlock, h7]
  | drop k => exact ⟨⟨(checkOp_sound X.owned (by simpa [checkX] using h)).1, trivial⟩, trivial⟩
  | dropSlice b => exact ⟨⟨(checkOp_sound X.owned (by simpa [checkX] using h)).1, trivial⟩, trivial⟩

theorem checkParts_sound [Target] {x : XSt Int} {op : XOp Int} (h : checkParts x op = true) :
    PartsApart x op ∧ PartsKept dbg x op := by
  obtain ⟨mutable, op⟩ := op
  cases op with
  | run op => cases op <;> simp_all [checkParts, PartsApart, PartsKept]
  | _ => exact ⟨trivial, trivial⟩

theorem checkApart_sound {x : XSt Int} {op : XOp Int} (h : checkApart x op = true) :
    PartsApart x op := by
  obtain ⟨mutable, op⟩ := op
  cases op with
  | run op => cases op <;> simp_all [checkApart, PartsApart]
  | _ => trivial

theorem checkRunX_sound [Target] {check : XSt Int → XOp Int → Bool} {P : XSt Int → XOp Int → Prop}
    (hP : ∀ x op, check x op = true → PartsApart x op ∧ P x op) {x : XSt Int} (X : Excl x)
    (S : Sep windowFoot True x) {ops : List (XOp Int)} (h : checkRunX check x ops = true) :
    AlongExclusive dbg exactKern (fun x op => Checked x op ∧ Plain dbg x op ∧ PartsApart x op ∧
      P x op) x ops := by
  induction ops generalizing x with
  | nil => trivial
  | cons op ops ih =>
    simp only [checkRunX, Bool.and_eq_true] at h
    have h1 := checkX_sound X h.1.1
    have h2 := hP _ _ h.1.2
    refine ⟨⟨h1.1, h1.2, h2⟩, fun o x' e => ?_⟩
    obtain ⟨o', x1, e1, X1, S1⟩ := exclusive_step (kern := exactKern) X S h1.1 h1.2 h2.1
    obtain ⟨rfl, rfl⟩ : o = o' ∧ x' = x1 := by simpa [e] using e1
    exact ih X1 S1 (by simpa [e] using h.2)

section

variable [Zero α] [One α] [Add α] [Mul α]

theorem along_mono [Target] {cfg : Cfg} {kern : Kern α} {P Q : XSt α → XOp α → Prop} {x : XSt α}
    {ops : List (XOp α)} (h : AlongExclusive cfg kern P x ops) (hPQ : ∀ x op, P x op → Q x op) :
    AlongExclusive cfg kern Q x ops := by
  induction ops generalizing x with
  | nil => trivial
  | cons op ops ih => exact ⟨hPQ _ _ h.1, fun o x' e => ih (h.2 o x' e)⟩

theorem along_snoc [Target] {cfg : Cfg} {kern : Kern α} {P : XSt α → XOp α → Prop} {x : XSt α}
    {ops : List (XOp α)} {op : XOp α} (h : AlongExclusive cfg kern P x ops)
    (hl : ∀ os y, runExclusive cfg kern x ops = some (os, y) → P y op) :
    AlongExclusive cfg kern P x (ops ++ [op]) := by
  induction ops generalizing x with
  | nil => exact ⟨hl [] x rfl, fun _ _ _ => trivial⟩
  | cons o ops ih =>
    refine ⟨h.1, fun o' x' e => ih (h.2 o' x' e) fun os y ey => hl (o' :: os) y ?_⟩
    simp [runExclusive, e, ey]

end

/-- The checks of a program and of one more step, and something about the state before that step. -/
def checkLast [Target] (ops : List (XOp Int)) (op : XOp Int) (P : XSt Int → Bool) : Bool :=
  checkRunX checkApart XSt.init ops && match runExclusive dbg exactKern XSt.init ops with
    | some (_, x) => checkX x op && P x
    | none => false

theorem checkLast_sound [Target] {ops : List (XOp Int)} {op : XOp Int} {P : XSt Int → Bool}
    (h : checkLast ops op P = true) :
    AlongExclusive dbg exactKern (fun x op => Checked x op ∧ Plain dbg x op) XSt.init ops ∧
    ∃ os x, runExclusive dbg exactKern XSt.init ops = some (os, x) ∧ Excl x ∧ Checked x op ∧
      Plain dbg x op ∧ P x = true := by
  simp only [checkLast, Bool.and_eq_true] at h
  have h1 := checkRunX_sound (P := fun _ _ => True) (fun x op h => ⟨checkApart_sound h, trivial⟩)
    excl_init (sep_init _ _) h.1
  refine ⟨along_mono h1 fun x op h => ⟨h.1, h.2.1⟩, ?_⟩
  cases e : runExclusive dbg exactKern XSt.init ops with
  | none => rw [e] at h; simp at h
  | some y =>
    obtain ⟨os, x⟩ := y
    rw [e] at h
    simp only [Bool.and_eq_true] at h
    obtain ⟨os', x', e', -, X, -⟩ := exclusive_run excl_init (sep_init _ _)
      (along_mono h1 fun x op h => ⟨h.1, h.2.1, h.2.2.1⟩)
    obtain ⟨rfl, rfl⟩ : os = os' ∧ x = x' := by simpa [e] using e'
    exact ⟨os, x, rfl, X, (checkX_sound X h.2.1).1, (checkX_sound X h.2.1).2, h.2.2⟩

/-- `let mut a = mat![4 × 4]; let (mut p, mut q, r, mut s) = a.split_in_four_mut((2, 2));` -/
def splitProgram : List (XOp Int) :=
  [⟨false, .run (.zeros .rowMajor 4 4)⟩, ⟨false, .run (.split 0 (2, 2))⟩]

/-- **C77 is false of the code**, no undefined behaviour: `matmul(1, &p, &s, 0, &mut q)` of the parts
of a split passes the borrow checker and is undefined. -/
theorem C77_undefined_false [Target] : ¬ C77_undefined_statement := by
  intro h
  obtain ⟨h1, os, x, e, -, hc, hp, -⟩ := checkLast_sound (ops := splitProgram)
    (op := ⟨false, .run (.matmul 1 1 4 0 2)⟩) (P := fun _ => true) (by decide_width_kernel)
  have := h (splitProgram ++ [⟨false, .run (.matmul 1 1 4 0 2)⟩]) (along_snoc h1 fun os' y ey => by
    obtain ⟨rfl, rfl⟩ : os' = os ∧ y = x := by simpa [e] using ey.symm
    exact ⟨hc, hp⟩)
  revert this
  decide_width_kernel

/-- The product of `C77_undefined_false` is one of those of `C77_exact`: a part of the split is taken
for another one by the kernel. -/
example : AlongExclusive dbg exactKern (fun x op => Checked x op ∧ ∀ p, op.op = .run p → NoStrides p)
    XSt.init (splitProgram ++ [⟨false, .run (.matmul 1 1 4 0 2)⟩]) := by
  obtain ⟨h1, os, x, e, -, hc, hp, -⟩ := checkLast_sound (ops := splitProgram)
    (op := ⟨false, .run (.matmul 1 1 4 0 2)⟩) (P := fun _ => true) (by decide +kernel)
  refine along_mono (along_snoc h1 fun os' y ey => ?_) (Q := fun x op => Checked x op ∧
    ∀ p, op.op = .run p → NoStrides p) fun x op h => ⟨h.1, fun p hp => ?_⟩
  · obtain ⟨rfl, rfl⟩ : os' = os ∧ y = x := by simpa [e] using ey.symm
    exact ⟨hc, hp⟩
  · have := h.2
    unfold Plain at this
    rw [hp] at this
    exact this.1

example : runExclusive dbg exactKern XSt.init
      (splitProgram ++ [⟨false, .run (.matmul 1 1 4 0 2)⟩]) = none ∧
    (runExclusive dbg exactKern XSt.init
      (splitProgram ++ [⟨false, .run (.matmul 1 1 2 0 4)⟩])).map (·.1) =
      some [.done, .done, .done] ∧
    (runExclusive dbg exactKern XSt.init
      (splitProgram ++ [⟨false, .run (.block 1 (1, 1) (0, 1))⟩])).map (·.1) =
      some [.done, .done, .panicked] := by decide +kernel

/-- Whether a step changes an element of a value that may be read and is not written to. -/
def disturbs [Target] (op : XOp Int) (g r c : Nat) (x : XSt Int) : Bool :=
  (x.t.life g).live && decide (∀ k, k < x.t.st.mats.length → (x.t.life k).live = true →
    g ∉ x.excl k) && (match op.op with | .run p => decide (p.writesTo ≠ some g) | _ => true) &&
  match x.t.st.mats[g]?, op.step dbg exactKern x with
  | some (.base b), some (_, x') => decide (r < b.layout.dim.1 ∧ c < b.layout.dim.2 ∧ r ≤ c) &&
      decide ((Mat.base b).get dbg x'.t.st.mem r c ≠ (Mat.base b).get dbg x.t.st.mem r c)
  | _, _ => false

theorem disturbed [Target] {ops : List (XOp Int)} {op : XOp Int} {g r c : Nat}
    (h : checkLast ops op (disturbs op g r c) = true) : ¬ C77_exclusive_statement := by
  intro hs
  obtain ⟨h1, os, x, e, X, hc, hp, h⟩ := checkLast_sound h
  simp only [disturbs, Bool.and_eq_true, decide_eq_true_eq] at h
  obtain ⟨⟨⟨hl, hr⟩, hw⟩, h⟩ := h
  split at h
  · rename_i b o x' hm he
    simp only [Bool.and_eq_true, decide_eq_true_eq] at h
    refine h.2 (hs ops os x h1 e op o x' hc hp he g _ hl hm
      (fun k hk => hr k (X.owned.bound k hk) hk) ?_ r c ⟨h.1.1, h.1.2.1, fun _ _ => h.1.2.2⟩)
    intro p hp
    rw [hp] at hw
    simpa using hw
  · simp at h

/-- **C77 is false of the code**, shared or mutable: `p.get_slice_mut(0, 5)` of the first part of a
split reaches into the second part. -/
theorem C77_exclusive_false [Target] : ¬ C77_exclusive_statement :=
  disturbed (ops := splitProgram) (op := ⟨false, .run (.writeSlice 1 0 5 [1, 2, 3, 4, 5])⟩) (g := 2)
    (r := 0) (c := 0) (by decide_width_kernel)

/-- So does a mutable block of the first part, which has the wrong strides. -/
theorem C77_blocks_false [Target] : ¬ C77_exclusive_statement :=
  disturbed (ops := splitProgram ++ [⟨true, .run (.block 1 (0, 0) (2, 2))⟩])
    (op := ⟨false, .run (.element 5 (.set 1 0 9))⟩) (g := 2)
    (r := 0) (c := 0) (by decide_width_kernel)

/-- `let mut a = mat![3 × 4]; { let mut v = a.block_mut((1, 1), (2, 2)); *v.get_mut(0, 1) = 5; }
let mut c = mat![3 × 4]; let b = mat![4 × 4]; MatMul::matmul(2, &a, &b, 3, &mut c);` and then the parts
of `c` side by side, with `a` and a view of `a`. -/
def exclusiveProgram : List (XOp Int) :=
  [⟨false, .run (.zeros .rowMajor 3 4)⟩, ⟨true, .run (.block 0 (1, 1) (2, 2))⟩,
   ⟨false, .run (.element 1 (.set 0 1 5))⟩, ⟨false, .drop 1⟩, ⟨false, .run (.get 0 1 2)⟩,
   ⟨false, .run (.zeros .rowMajor 3 4)⟩, ⟨false, .run (.zeros .rowMajor 4 4)⟩,
   ⟨false, .run (.matmul 2 0 3 3 2)⟩, ⟨false, .run (.block 0 (0, 0) (3, 4))⟩,
   ⟨false, .run (.split 2 (1, 2))⟩, ⟨false, .run (.element 5 (.set 0 1 7))⟩,
   ⟨false, .run (.forEach 8 (fun _ _ => 8))⟩, ⟨false, .run (.get 5 0 1)⟩]

example : AlongExclusive dbg exactKern (fun x op => Checked x op ∧ Plain dbg x op ∧
    PartsApart x op ∧ PartsKept dbg x op) XSt.init exclusiveProgram :=
  checkRunX_sound (fun _ _ h => checkParts_sound h) excl_init (sep_init _ _) (by decide +kernel)

example : (runExclusive dbg exactKern XSt.init exclusiveProgram).map (fun x => x.1) =
    some [.done, .done, .done, .done, .value 5, .done, .done, .done, .done, .done, .done, .done,
      .value 7] := by decide +kernel

/-- In the state that this program reaches: the parts, the matrix `a` and the view of it can be read,
the matrix that was split cannot. -/
example : (runExclusive dbg exactKern XSt.init exclusiveProgram).map (fun x =>
    ((List.range 9).filter fun h => (x.2.t.life h).live, (List.range 9).filter fun h =>
      (x.2.t.life h).live && (List.range 9).all fun g =>
        !((x.2.t.life g).live && decide (h ∈ x.2.excl g)))) =
    some ([0, 2, 3, 4, 5, 6, 7, 8], [0, 3, 4, 5, 6, 7, 8]) := by decide +kernel

/-- What the rules prevent: writing to a matrix that a view shows. -/
example : (runExclusive dbg exactKern XSt.init (exclusiveProgram.take 9)).map (fun x =>
    (checkX x.2 ⟨false, .run (.element 0 (.set 0 0 1))⟩,
      checkX x.2 ⟨false, .run (.element 4 (.set 0 0 1))⟩,
      checkX x.2 ⟨false, .run (.matmul 1 0 3 0 0)⟩, checkX x.2 ⟨false, .run (.matmul 1 0 3 0 2)⟩)) =
    some (false, false, false, true) := by decide +kernel

end Householder.Props
