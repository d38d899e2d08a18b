import Verif.Spec.Lifetimes
import Verif.Props.Alloc
import Verif.Lemmas.Frame

/-!
# Property C76: no use after free, no double free, no leak
-/

namespace Householder.Props

open Spec

variable {α : Type}

/-! ### What operations refer to -/

theorem from_raw_parts_buf {p : Ptr} {n : Nat} {d : Container} (h : p.from_raw_parts n = .ok d) :
    d.buf = p.prov.buf := by
  unfold Ptr.from_raw_parts at h
  split at h
  · cases h; rfl
  · cases h

theorem from_pointer_strided_buf [Target] {cfg : Cfg} {p : Ptr} {d : Nat × Nat} {l : Layout} {v : BaseMatrix}
    (h : from_pointer_strided cfg p d l = .ok v) : v.data.buf = p.prov.buf := by
  simp only [from_pointer_strided, Out.bind_eq_ok] at h
  obtain ⟨_, _, _, _, _, _, _, _, c, hc, h⟩ := h
  rw [from_data_data h]
  exact from_raw_parts_buf hc

theorem block_buf [Target] {cfg : Cfg} {b v : BaseMatrix} {tl d : Nat × Nat} (h : b.block cfg tl d = .ok v) :
    v.data.buf = b.data.buf := by
  simp only [BaseMatrix.block, Out.bind_eq_ok] at h
  obtain ⟨_, _, _, _, _, _, _, _, p, hp, _, _, h⟩ := h
  split at h
  · rw [from_pointer_strided_buf h]
    unfold Ptr.add at hp
    split at hp
    · cases hp; rfl
    · cases hp
  · cases h

theorem split_buf [Target] {cfg : Cfg} {b : BaseMatrix} {s : Nat × Nat}
    {q : BaseMatrix × BaseMatrix × BaseMatrix × BaseMatrix}
    (h : b.split_in_four_mut cfg s = .ok q) (k : Fin 4) : (quad q k).data.buf = b.data.buf := by
  have key : ∀ {z : Int} {p : Ptr} {d : Nat × Nat} {l : Layout} {v : BaseMatrix},
      b.get_pointer.offset z = .ok p → from_pointer_strided cfg p d l = .ok v →
      v.data.buf = b.data.buf := by
    intro z p d l v hp hv
    rw [from_pointer_strided_buf hv]
    unfold Ptr.offset at hp
    split at hp
    · cases hp; rfl
    · cases hp
  unfold BaseMatrix.split_in_four_mut at h
  split at h
  · simp only [Out.bind_eq_ok, Out.pure_eq] at h
    obtain ⟨_, _, _, _, _, _, _, _, _, _, _, _, _, _, _, _, _, _, _, h0, _, g0, _, h1, _, g1, _, h2,
      _, g2, _, h3, _, g3, h⟩ := h
    cases h
    match k with
    | 0 => exact key h0 g0
    | 1 => exact key h1 g1
    | 2 => exact key h2 g2
    | 3 => exact key h3 g3
  · cases h

theorem base?_some {s : St α} {h : Nat} {b : BaseMatrix} (e : s.base? h = some b) :
    s.mats[h]? = some (.base b) := by
  unfold St.base? at e
  split at e
  · rename_i b' hb
    obtain rfl : b' = b := by simpa using e
    exact hb
  · simp at e

theorem GoodMat.congr [Target] {mem mem' : Mem α} {m : Mat α} (h : GoodMat mem m)
    (hs : ∀ b ∈ storage m, mem.size b ≤ mem'.size b) : GoodMat mem' m := by
  induction m with
  | base b =>
    have := hs b.data.buf (by simp [storage])
    exact ⟨h.sound.mono this, h.noOverlap, fun hm => (h.view hm).mono this⟩
  | ref m ih => exact ih h hs
  | addition a b l iha ihb =>
    exact ⟨iha h.1 fun b hb => hs b (by simp [storage, hb]),
      ihb h.2.1 fun b hb => hs b (by simp [storage, hb]), h.2.2⟩
  | scalarMult m s ih => exact ih h hs

theorem gone_good [Target] (mem : Mem α) : GoodMat mem (gone : Mat α) :=
  good_of_contiguous ⟨⟨by simp, by simp⟩, fun r c h => absurd h (by simp [Stored, Layout.dim]), by
    simp [count]⟩ trivial

section

variable [Zero α] [One α] [Add α] [Mul α]

theorem owns_done [Target] {cfg : Cfg} {kern : Kern α} {s s' : St α} {op : Op α} {o : Obs α}
    (ho : op.owns = true) (h : op.exec cfg kern s = .ok (o, s')) : o = .done := by
  cases op <;> simp only [Op.owns, Bool.false_eq_true] at ho <;>
    simp only [Op.exec, withSome] at h <;> (repeat' split at h) <;>
    simp only [Out.bind_eq_ok, Out.pure_eq, reduceCtorEq] at h
  all_goals
    obtain ⟨_, _, h⟩ := h
    first
    | (cases h; rfl)
    | (obtain ⟨_, _, h⟩ := h; cases h; rfl)

theorem exec_storage [Target] {cfg : Cfg} {kern : Kern α} {s s' : St α} {op : Op α} {o : Obs α}
    (h : op.exec cfg kern s = .ok (o, s')) (ho : op.owns = false) :
    (∀ x, s'.mem.size x = s.mem.size x) ∧ s'.mem.bufs.length = s.mem.bufs.length ∧
    ∃ new, s'.mats = s.mats ++ new ∧ (op.moves ≠ [] → new.length = 1) ∧
      ∀ m ∈ new, ∀ b ∈ storage m, ∃ k ∈ op.moves ++ op.borrows, ∃ mk, s.mats[k]? = some mk ∧
        b ∈ storage mk := by
  obtain ⟨⟨new, e1, e2⟩, e3, -, e4, -⟩ := C73_operation cfg kern s s' op o (by simp [Op.step, h])
  have ha : op.allocations o = 0 := by cases o <;> simp [Op.allocations, ho]
  rw [ha, Nat.add_zero] at e3
  refine ⟨fun x => ?_, e3, new, e1, ?_⟩
  · by_cases hx : x < s.mem.bufs.length
    · exact e4 x hx
    · simp only [Mem.size]
      rw [List.getElem?_eq_none (by omega), List.getElem?_eq_none (by omega)]
  have none : op.creates = 0 → op.moves = [] → (op.moves ≠ [] → new.length = 1) ∧
      ∀ m ∈ new, ∀ b ∈ storage m, ∃ k ∈ op.moves ++ op.borrows, ∃ mk, s.mats[k]? = some mk ∧
        b ∈ storage mk := by
    intro hc hm
    have : new = [] := by
      apply List.eq_nil_of_length_eq_zero
      rw [e2]; cases o <;> simp [Op.created, hc]
    subst this
    exact ⟨fun h => absurd hm h, by simp⟩
  cases op with
  | block k tl d =>
    refine ⟨fun h => absurd rfl h, ?_⟩
    simp only [Op.exec, withSome] at h
    split at h
    · rename_i b hb
      split at h
      · simp only [Out.bind_eq_ok, Out.pure_eq] at h
        obtain ⟨v, hv, h⟩ := h
        cases h
        obtain rfl : [.base v] = new := List.append_cancel_left e1
        simp only [List.mem_singleton, forall_eq, storage, Op.moves, Op.borrows, List.nil_append,
          exists_eq_left]
        exact ⟨_, base?_some hb, by simp [storage, block_buf hv]⟩
      · cases h
    · cases h
  | split k p =>
    refine ⟨fun h => absurd rfl h, ?_⟩
    simp only [Op.exec, withSome] at h
    split at h
    · rename_i b hb
      split at h
      · simp only [Out.bind_eq_ok, Out.pure_eq] at h
        obtain ⟨q, hq, h⟩ := h
        cases h
        have : _ = new := List.append_cancel_left e1
        subst this
        simp only [List.mem_map, forall_exists_index, and_imp, Op.moves, Op.borrows,
          List.nil_append, List.mem_singleton, exists_eq_left]
        rintro m i - rfl x hx
        refine ⟨_, base?_some hb, ?_⟩
        simpa [storage, split_buf hq i] using hx
      · cases h
    · cases h
  | ref k =>
    refine ⟨fun h => absurd rfl h, ?_⟩
    simp only [Op.exec, withSome] at h
    split at h
    · rename_i m hm
      cases h
      obtain rfl : [m.from_ref] = new := List.append_cancel_left e1
      simp only [List.mem_singleton, forall_eq, Op.moves, Op.borrows, List.nil_append,
          exists_eq_left]
      exact fun x hx => ⟨_, hm, hx⟩
    · cases h
  | add rl rr k1 k2 =>
    simp only [Op.exec, withSome] at h
    split at h
    · rename_i ma ha
      split at h
      · rename_i mb hb
        split at h
        · have key : ∀ m, (∀ x ∈ storage m, x ∈ storage ma ∨ x ∈ storage mb) → new = [m] →
              ((Op.add rl rr k1 k2 : Op α).moves ≠ [] → new.length = 1) ∧
              ∀ m ∈ new, ∀ b ∈ storage m, ∃ k ∈ (Op.add rl rr k1 k2 : Op α).moves ++
                (Op.add rl rr k1 k2 : Op α).borrows, ∃ mk, s.mats[k]? = some mk ∧
                b ∈ storage mk := by
            rintro m hm rfl
            refine ⟨fun _ => rfl, ?_⟩
            simp only [List.mem_singleton, forall_eq]
            intro x hx
            rcases hm x hx with h' | h'
            · exact ⟨k1, by cases rl <;> simp [Op.moves, Op.borrows], ma, ha, h'⟩
            · exact ⟨k2, by cases rr <;> simp [Op.moves, Op.borrows], mb, hb, h'⟩
          have add : ∀ {a b m : Mat α}, Mat.addition_new a b = .ok m →
              storage m = storage a ++ storage b := by
            intro a b m hm
            simp only [Mat.addition_new, Out.bind_eq_ok, Out.pure_eq] at hm
            obtain ⟨_, _, hm⟩ := hm
            cases hm; rfl
          cases rl <;> cases rr <;>
          · simp only [Out.bind_eq_ok, Out.pure_eq] at h
            obtain ⟨m, hm, h⟩ := h
            cases h
            refine key m (fun x hx => ?_) (List.append_cancel_left e1).symm
            rw [add hm] at hx
            simpa [storage, Mat.from_ref] using hx
        · cases h
      · cases h
    · cases h
  | scale sf br x k =>
    simp only [Op.exec, withSome] at h
    split at h
    · rename_i m hm
      cases h
      have : _ = new := List.append_cancel_left e1
      subst this
      refine ⟨fun _ => rfl, ?_⟩
      simp only [List.mem_singleton, forall_eq]
      intro y hy
      refine ⟨k, by cases br <;> simp [Op.moves, Op.borrows], m, hm, ?_⟩
      cases sf <;> cases br <;> exact hy
    · cases h
  | _ => first | exact none rfl rfl | simp [Op.owns] at ho

end

/-! ### The invariant -/

/-- A property of matrices that does not depend on storage other than their own, nor on the
contents. -/
class Kept (P : Mem α → Mat α → Prop) : Prop where
  gone : ∀ mem, P mem gone
  congr : ∀ mem mem' m, P mem m → (∀ b ∈ storage m, mem.size b ≤ mem'.size b) → P mem' m

instance [Target] : Kept (α := α) GoodMat := ⟨gone_good, fun _ _ _ h => h.congr⟩

variable {P : Mem α → Mat α → Prop}

/-- Every allocation of the library is freed or has exactly one owner, and whatever a value refers
to belongs to itself, to the program, or to a value that it borrows from and that is still there. All
values have the property `P`. -/
structure OwnedBy (P : Mem α → Mat α → Prop) (t : LSt α) : Prop where
  bound : ∀ h, (t.life h).live = true → h < t.st.mats.length
  good : ∀ m ∈ t.st.mats, P t.st.mem m
  dead : ∀ h m, (t.life h).live = false → t.st.mats[h]? = some m → m = gone
  lent : ∀ h, (t.life h).live = true → ∀ g ∈ (t.life h).lenders, g < h ∧ (t.life g).live = true
  cover : ∀ h m, (t.life h).live = true → t.st.mats[h]? = some m → ∀ b ∈ storage m,
    b ∈ (t.life h).owns ∨ b ∈ (t.life h).slices ∨
      ∃ g ∈ (t.life h).lenders, ∃ mg, t.st.mats[g]? = some mg ∧ b ∈ storage mg
  owns : ∀ h, (t.life h).live = true → ∀ b ∈ (t.life h).owns,
    b < t.st.mem.bufs.length ∧ b ∉ t.freed ∧ b ∉ t.program
  nodup : ∀ h, (t.life h).live = true → (t.life h).owns.Nodup
  unique : ∀ g h, (t.life g).live = true → (t.life h).live = true → ∀ b ∈ (t.life g).owns,
    b ∈ (t.life h).owns → g = h
  slices : ∀ h, (t.life h).live = true → ∀ b ∈ (t.life h).slices, b ∈ t.program ∧ b ∉ t.freed
  complete : ∀ b, b < t.st.mem.bufs.length →
    b ∈ t.freed ∨ b ∈ t.program ∨ ∃ h, (t.life h).live = true ∧ b ∈ (t.life h).owns
  program : ∀ b ∈ t.program, b < t.st.mem.bufs.length
  freed : ∀ b ∈ t.freed, b < t.st.mem.bufs.length
  once : t.freed.Nodup

/-- The same with the invariant of C50. -/
abbrev Owned [Target] (t : LSt α) : Prop := OwnedBy GoodMat t

theorem OwnedBy.inv [Target] {t : LSt α} (H : OwnedBy GoodMat t) : Inv t.st := H.good

theorem owned_init : OwnedBy P (LSt.init : LSt α) where
  bound h hh := by simp [LSt.init] at hh
  good := by intro m hm; simp [LSt.init, St.init] at hm
  dead h m _ hm := by simp [LSt.init, St.init] at hm
  lent h hh := by simp [LSt.init] at hh
  cover h m hh := by simp [LSt.init] at hh
  owns h hh := by simp [LSt.init] at hh
  nodup h hh := by simp [LSt.init] at hh
  unique g h hh := by simp [LSt.init] at hh
  slices h hh := by simp [LSt.init] at hh
  complete b hb := by simp [LSt.init, St.init] at hb
  program b hb := by simp [LSt.init] at hb
  freed b hb := by simp [LSt.init] at hb
  once := List.nodup_nil

/-! ### Freeing -/

/-- What freeing allocations does. -/
structure Freed (t : LSt α) (bs : List Nat) (t' : LSt α) : Prop where
  mats : t'.st.mats = t.st.mats
  life : t'.life = t.life
  program : t'.program = t.program
  nbufs : t'.st.mem.bufs.length = t.st.mem.bufs.length
  bufs : ∀ x, x ∉ bs → t'.st.mem.bufs[x]? = t.st.mem.bufs[x]?
  freed : ∀ x, x ∈ t'.freed ↔ x ∈ bs ∨ x ∈ t.freed
  once : t.freed.Nodup → t'.freed.Nodup

theorem Freed.size {t t' : LSt α} {bs : List Nat} (F : Freed t bs t') (x : Nat) (hx : x ∉ bs) :
    t'.st.mem.size x = t.st.mem.size x := by
  unfold Mem.size
  rw [F.bufs x hx]

theorem free_all {t : LSt α} {bs : List Nat} (hn : bs.Nodup)
    (hb : ∀ b ∈ bs, b < t.st.mem.bufs.length ∧ b ∉ t.freed) :
    ∃ t', bs.foldlM LSt.free t = some t' ∧ Freed t bs t' := by
  induction bs generalizing t with
  | nil => exact ⟨t, rfl, rfl, rfl, rfl, rfl, fun _ _ => rfl, by simp, id⟩
  | cons b bs ih =>
    obtain ⟨hnb, hn⟩ := List.nodup_cons.1 hn
    have h0 := hb b (by simp)
    have e : t.free b = some { t with
        st := ⟨⟨t.st.mem.bufs.set b []⟩, t.st.mats⟩, freed := b :: t.freed } := by
      unfold LSt.free; rw [if_pos h0]
    obtain ⟨t', h1, h2⟩ := ih (t := { t with
        st := ⟨⟨t.st.mem.bufs.set b []⟩, t.st.mats⟩, freed := b :: t.freed }) hn (by
      intro x hx
      have := hb x (by simp [hx])
      refine ⟨by simpa using this.1, ?_⟩
      simp only [List.mem_cons, not_or]
      exact ⟨by rintro rfl; exact hnb hx, this.2⟩)
    refine ⟨t', by rw [List.foldlM_cons, e]; exact h1, h2.mats, h2.life, h2.program, ?_, ?_, ?_, ?_⟩
    · simpa using h2.nbufs
    · intro x hx
      simp only [List.mem_cons, not_or] at hx
      rw [h2.bufs x hx.2]
      simp [List.getElem?_set_ne (Ne.symm hx.1)]
    · intro x
      rw [h2.freed]
      simp only [List.mem_cons]
      tauto
    · intro h
      exact h2.once (List.nodup_cons.2 ⟨h0.2, h⟩)

theorem leave_get {t : LSt α} {hs : List Nat} {h : Nat} {m : Mat α}
    (e : (t.leave hs).st.mats[h]? = some m) :
    ∃ m', t.st.mats[h]? = some m' ∧ m = if h ∈ hs then gone else m' := by
  simp only [LSt.leave, List.getElem?_mapIdx, Option.map_eq_some_iff] at e
  obtain ⟨m', h1, h2⟩ := e
  exact ⟨m', h1, h2.symm⟩

theorem leave_get_other {t : LSt α} {hs : List Nat} {h : Nat} (hh : h ∉ hs) :
    (t.leave hs).st.mats[h]? = t.st.mats[h]? := by
  simp only [LSt.leave, List.getElem?_mapIdx, if_neg hh]
  simp

theorem leave_live {t : LSt α} {hs : List Nat} {h : Nat} (e : ((t.leave hs).life h).live = true) :
    h ∉ hs ∧ (t.life h).live = true ∧ (t.leave hs).life h = t.life h := by
  by_cases hh : h ∈ hs
  · simp [LSt.leave, hh] at e
  · simp only [LSt.leave, if_neg hh] at e ⊢
    exact ⟨hh, e, trivial⟩

/-- Dropping values and freeing what they own, and nothing that others own or borrow. -/
theorem OwnedBy.shrink [Kept P] {t t' : LSt α} (H : OwnedBy P t) {hs bs : List Nat} (F : Freed t bs t')
    (hl : ∀ h ∈ hs, NotLent t h)
    (hx : ∀ g, (t.life g).live = true → g ∉ hs → ∀ b ∈ bs,
      b ∉ (t.life g).owns ∧ b ∉ (t.life g).slices)
    (hall : ∀ h ∈ hs, ∀ b ∈ (t.life h).owns, b ∈ bs)
    (hb : ∀ b ∈ bs, b < t.st.mem.bufs.length) : OwnedBy P (t'.leave hs) := by
  have far : ∀ g, (t.life g).live = true → g ∉ hs → ∀ m, t.st.mats[g]? = some m →
      ∀ b ∈ storage m, b ∉ bs := by
    intro g
    induction g using Nat.strong_induction_on with
    | _ g ih =>
      intro hg hgs m hm b hbm hbb
      rcases H.cover g m hg hm b hbm with h | h | ⟨k, hk, mk, hmk, hbk⟩
      · exact (hx g hg hgs b hbb).1 h
      · exact (hx g hg hgs b hbb).2 h
      · obtain ⟨hlt, hkl⟩ := H.lent g hg k hk
        exact ih k hlt hkl (fun hks => hl k hks g hg hk) mk hmk b hbk hbb
  have live : ∀ {h}, ((t'.leave hs).life h).live = true →
      h ∉ hs ∧ (t.life h).live = true ∧ (t'.leave hs).life h = t.life h := by
    intro h e
    have := leave_live e
    rw [F.life] at this
    exact this
  have back : ∀ {h}, h ∉ hs → (t'.leave hs).life h = t.life h := by
    intro h e
    simp only [LSt.leave, if_neg e, F.life]
  have nb : (t'.leave hs).st.mem.bufs.length = t.st.mem.bufs.length := F.nbufs
  have fr : ∀ x, x ∈ (t'.leave hs).freed ↔ x ∈ bs ∨ x ∈ t.freed := F.freed
  have pr : (t'.leave hs).program = t.program := F.program
  constructor
  · intro h hh
    simpa [LSt.leave, F.mats] using H.bound h (live hh).2.1
  · intro m hm
    obtain ⟨h, hh⟩ := List.mem_iff_getElem?.1 hm
    obtain ⟨m', h1, rfl⟩ := leave_get hh
    rw [F.mats] at h1
    split
    · exact Kept.gone _
    · rename_i hhs
      cases hlv : (t.life h).live with
      | false => rw [H.dead h m' hlv h1]; exact Kept.gone _
      | true =>
        refine Kept.congr _ _ _ (H.good m' (List.mem_of_getElem? h1)) fun b hb => ?_
        rw [show (t'.leave hs).st.mem.size b = t.st.mem.size b from
          F.size b (far h hlv hhs m' h1 b hb)]
  · intro h m hh hm
    obtain ⟨m', h1, rfl⟩ := leave_get hm
    split
    · rfl
    · rename_i hhs
      rw [back hhs] at hh
      rw [F.mats] at h1
      exact H.dead h m' hh h1
  · intro h hh g hg
    obtain ⟨h1, h2, h3⟩ := live hh
    rw [h3] at hg
    obtain ⟨h4, h5⟩ := H.lent h h2 g hg
    have : g ∉ hs := fun hgs => hl g hgs h h2 hg
    exact ⟨h4, by rw [back this]; exact h5⟩
  · intro h m hh hm b hb
    obtain ⟨h1, h2, h3⟩ := live hh
    rw [leave_get_other h1, F.mats] at hm
    rw [h3]
    rcases H.cover h m h2 hm b hb with h | h | ⟨k, hk, mk, hmk, hbk⟩
    · exact .inl h
    · exact .inr (.inl h)
    · refine .inr (.inr ⟨k, hk, mk, ?_, hbk⟩)
      rw [leave_get_other fun hks => hl k hks h h2 hk, F.mats]
      exact hmk
  · intro h hh b hb
    obtain ⟨h1, h2, h3⟩ := live hh
    rw [h3] at hb
    obtain ⟨h4, h5, h6⟩ := H.owns h h2 b hb
    rw [nb, pr, fr]
    exact ⟨h4, fun h' => h'.elim (fun h' => (hx h h2 h1 b h').1 hb) h5, h6⟩
  · intro h hh
    obtain ⟨h1, h2, h3⟩ := live hh
    rw [h3]; exact H.nodup h h2
  · intro g h hg hh b
    obtain ⟨-, h2, h3⟩ := live hg
    obtain ⟨-, h5, h6⟩ := live hh
    rw [h3, h6]
    exact H.unique g h h2 h5 b
  · intro h hh b hb
    obtain ⟨h1, h2, h3⟩ := live hh
    rw [h3] at hb
    obtain ⟨h4, h5⟩ := H.slices h h2 b hb
    rw [pr, fr]
    exact ⟨h4, fun h' => h'.elim (fun h' => (hx h h2 h1 b h').2 hb) h5⟩
  · intro b hb
    rw [nb] at hb
    rw [fr, pr]
    rcases H.complete b hb with h | h | ⟨h, h1, h2⟩
    · exact .inl (.inr h)
    · exact .inr (.inl h)
    · by_cases hh : h ∈ hs
      · exact .inl (.inl (hall h hh b h2))
      · exact .inr (.inr ⟨h, by rw [back hh]; exact h1, by rw [back hh]; exact h2⟩)
  · intro b hb
    rw [nb]; rw [pr] at hb
    exact H.program b hb
  · intro b hb'
    rw [nb]; rw [fr] at hb'
    exact hb'.elim (hb b) (H.freed b)
  · exact F.once H.once

/-- What is left is as it was. -/
structure Shrunk (t t' : LSt α) : Prop where
  nbufs : t'.st.mem.bufs.length = t.st.mem.bufs.length
  len : t'.st.mats.length = t.st.mats.length
  mats : ∀ h, (t'.life h).live = true →
    (t.life h).live = true ∧ t'.st.mats[h]? = t.st.mats[h]?
  bufs : ∀ b, b ∉ t'.freed → b ∉ t.freed ∧ t'.st.mem.bufs[b]? = t.st.mem.bufs[b]?

theorem Freed.shrunk {t t' : LSt α} {bs : List Nat} (F : Freed t bs t') (hs : List Nat) :
    Shrunk t (t'.leave hs) := by
  refine ⟨F.nbufs, by simp [LSt.leave, F.mats], fun h hh => ?_, fun b hb => ?_⟩
  · obtain ⟨h1, h2, -⟩ := leave_live hh
    rw [F.life] at h2
    rw [leave_get_other h1, F.mats]
    exact ⟨h2, rfl⟩
  · have hb : b ∉ t'.freed := hb
    rw [F.freed, not_or] at hb
    exact ⟨hb.2, F.bufs b hb.1⟩

/-- Dropping values that are not borrowed. -/
theorem OwnedBy.drop [Kept P] {t : LSt α} (H : OwnedBy P t) {hs : List Nat} (hn : hs.Nodup)
    (hv : ∀ h ∈ hs, (t.life h).live = true) (hl : ∀ h ∈ hs, NotLent t h) :
    ∃ t', t.drop hs = some t' ∧ OwnedBy P t' ∧ Shrunk t t' ∧ t'.program = t.program ∧
      ∀ b ∈ t'.freed, b ∈ t.freed ∨ b ∉ t.program := by
  have mem : ∀ {b}, b ∈ hs.flatMap (fun h => (t.life h).owns) → ∃ h ∈ hs, b ∈ (t.life h).owns :=
    fun hb => by simpa using hb
  obtain ⟨t', h1, F⟩ := free_all (t := t) (bs := hs.flatMap fun h => (t.life h).owns) (by
      rw [List.nodup_flatMap]
      refine ⟨fun h hh => H.nodup h (hv h hh), ?_⟩
      refine hn.imp_of_mem fun {a b} ha hb hab => ?_
      intro x hxa hxb
      exact hab (H.unique a b (hv a ha) (hv b hb) x hxa hxb))
    (by
      intro b hb
      obtain ⟨h, hh, hb⟩ := mem hb
      have := H.owns h (hv h hh) b hb
      exact ⟨this.1, this.2.1⟩)
  refine ⟨t'.leave hs, by unfold LSt.drop; rw [h1]; rfl, ?_, F.shrunk hs, F.program, ?_⟩
  · refine H.shrink F hl ?_ (fun h hh b hb => by simpa using ⟨h, hh, hb⟩) ?_
    · intro g hg hgs b hb
      obtain ⟨h, hh, hb⟩ := mem hb
      refine ⟨fun hb' => hgs (H.unique g h hg (hv h hh) b hb' hb ▸ hh), fun hb' => ?_⟩
      exact (H.owns h (hv h hh) b hb).2.2 (H.slices g hg b hb').1
    · intro b hb
      obtain ⟨h, hh, hb⟩ := mem hb
      exact (H.owns h (hv h hh) b hb).1
  · intro b hb
    rcases (F.freed b).1 hb with hb | hb
    · obtain ⟨h, hh, hb⟩ := mem hb
      exact .inr (H.owns h (hv h hh) b hb).2.2
    · exact .inl hb

/-- Dropping a slice that is not borrowed. -/
theorem OwnedBy.dropSlice [Kept P] {t : LSt α} (H : OwnedBy P t) {b : Nat} (hb : b ∈ t.program)
    (hf : b ∉ t.freed) (hl : ∀ g, (t.life g).live = true → b ∉ (t.life g).slices) :
    ∃ t', t.free b = some t' ∧ OwnedBy P t' ∧ Shrunk t t' ∧ t'.program = t.program ∧
      ∀ x ∈ t'.freed, x ∈ t.freed ∨ x = b := by
  obtain ⟨t', h1, F⟩ := free_all (t := t) (bs := [b]) (by simp) (by simpa using ⟨H.program b hb, hf⟩)
  have e : t'.leave [] = t' := by
    cases t' with
    | mk st life program freed =>
      cases st
      simp only [LSt.leave, List.not_mem_nil, if_false, LSt.mk.injEq, St.mk.injEq, and_true, true_and]
      exact List.ext_getElem? (by simp)
  refine ⟨t', by simpa using h1, ?_, by rw [← e]; exact F.shrunk [], F.program, fun x hx => ?_⟩
  · rw [← e]
    refine H.shrink F (by simp) ?_ (by simp) (by simpa using H.program b hb)
    simp only [List.mem_singleton, forall_eq]
    exact fun g hg _ => ⟨fun h => (H.owns g hg b h).2.2 hb, hl g hg⟩
  · rcases (F.freed x).1 hx with h | h
    · exact .inr (by simpa using h)
    · exact .inl h

/-! ### New values -/

/-- New values that take the place of the values `hs`. -/
theorem OwnedBy.grow [Kept P] {t : LSt α} (H : OwnedBy P t) {hs : List Nat} {L : Life} {new : List (Mat α)}
    {mem : Mem α} {program : List Nat} (hlive : L.live = true)
    (hgood : ∀ m ∈ t.st.mats ++ new, P mem m) (hl : ∀ h ∈ hs, NotLent t h)
    (hv : ∀ h ∈ hs, (t.life h).live = true)
    (hcover : ∀ m ∈ new, ∀ b ∈ storage m, b ∈ L.owns ∨ b ∈ L.slices ∨
      ∃ g ∈ L.lenders, ∃ mg, t.st.mats[g]? = some mg ∧ b ∈ storage mg)
    (hlend : ∀ g ∈ L.lenders, (t.life g).live = true ∧ g ∉ hs)
    (howns : ∀ b ∈ L.owns, b < mem.bufs.length ∧ b ∉ t.freed ∧ b ∉ program ∧
      ∀ g, (t.life g).live = true → b ∈ (t.life g).owns → g ∈ hs)
    (hnodup : L.owns.Nodup) (hone : L.owns ≠ [] → new.length = 1)
    (hslices : ∀ b ∈ L.slices, b ∈ program ∧ b ∉ t.freed)
    (hp : ∀ b ∈ t.program, b ∈ program)
    (hp' : ∀ b ∈ program, b < mem.bufs.length ∧ (b ∈ t.program ∨ t.st.mem.bufs.length ≤ b))
    (hnb : t.st.mem.bufs.length ≤ mem.bufs.length)
    (hcomplete : ∀ b, b < mem.bufs.length → t.st.mem.bufs.length ≤ b → b ∈ program ∨ b ∈ L.owns)
    (htrans : ∀ h ∈ hs, ∀ b ∈ (t.life h).owns, b ∈ L.owns) :
    OwnedBy P (LSt.leave { t with
      st := ⟨mem, t.st.mats ++ new⟩
      life := fun h => if t.st.mats.length ≤ h ∧ h < (t.st.mats ++ new).length then L else t.life h
      program := program } hs) := by
  set u : LSt α := { t with
      st := ⟨mem, t.st.mats ++ new⟩
      life := fun h => if t.st.mats.length ≤ h ∧ h < (t.st.mats ++ new).length then L else t.life h
      program := program } with hu
  have old : ∀ {h}, (t.life h).live = true → u.life h = t.life h := by
    intro h hh
    have := H.bound h hh
    simp only [hu]
    rw [if_neg (by omega)]
  have fresh : ∀ {h}, t.st.mats.length ≤ h → h < t.st.mats.length + new.length → u.life h = L := by
    intro h h1 h2
    simp only [hu, List.length_append]
    rw [if_pos ⟨h1, h2⟩]
  have live : ∀ {h}, ((u.leave hs).life h).live = true → h ∉ hs ∧
      ((t.life h).live = true ∧ (u.leave hs).life h = t.life h ∨
        t.st.mats.length ≤ h ∧ h < t.st.mats.length + new.length ∧ (u.leave hs).life h = L) := by
    intro h e
    obtain ⟨h1, h2, h3⟩ := leave_live e
    refine ⟨h1, ?_⟩
    rw [h3]
    by_cases hc : t.st.mats.length ≤ h ∧ h < t.st.mats.length + new.length
    · exact .inr ⟨hc.1, hc.2, fresh hc.1 hc.2⟩
    · have : u.life h = t.life h := by
        simp only [hu, List.length_append]
        rw [if_neg hc]
      rw [this] at h2 ⊢
      exact .inl ⟨h2, rfl⟩
  have back : ∀ {h}, h ∉ hs → (u.leave hs).life h = u.life h := by
    intro h e
    simp only [LSt.leave, if_neg e]
  have get : ∀ {h m}, h < t.st.mats.length → h ∉ hs → (u.leave hs).st.mats[h]? = some m →
      t.st.mats[h]? = some m := by
    intro h m hlt hhs hm
    rw [leave_get_other hhs] at hm
    simpa [hu, List.getElem?_append_left hlt] using hm
  have get' : ∀ {h m}, h ∉ hs → t.st.mats[h]? = some m → (u.leave hs).st.mats[h]? = some m := by
    intro h m hhs hm
    rw [leave_get_other hhs]
    have hlt := (List.getElem?_eq_some_iff.1 hm).1
    simpa [hu, List.getElem?_append_left hlt] using hm
  have getNew : ∀ {h m}, t.st.mats.length ≤ h → h ∉ hs → (u.leave hs).st.mats[h]? = some m →
      m ∈ new := by
    intro h m hle hhs hm
    rw [leave_get_other hhs] at hm
    simp only [hu, List.getElem?_append_right hle] at hm
    exact List.mem_of_getElem? hm
  have one : L.owns ≠ [] → ∀ {h}, t.st.mats.length ≤ h → h < t.st.mats.length + new.length →
      h = t.st.mats.length := by
    intro h0 h h1 h2
    have := hone h0
    omega
  constructor
  · intro h hh
    rcases (live hh).2 with ⟨h1, -⟩ | ⟨-, h1, -⟩
    · have := H.bound h h1
      simp [LSt.leave, hu]; omega
    · simpa [LSt.leave, hu] using h1
  · intro m hm
    obtain ⟨h, hh⟩ := List.mem_iff_getElem?.1 hm
    obtain ⟨m', h1, rfl⟩ := leave_get hh
    split
    · exact Kept.gone _
    · exact hgood m' (List.mem_of_getElem? h1)
  · intro h m hh hm
    obtain ⟨m', h1, rfl⟩ := leave_get hm
    split
    · rfl
    · rename_i hhs
      rw [back hhs] at hh
      have hlt : h < t.st.mats.length := by
        by_contra hge
        have : h < t.st.mats.length + new.length := by
          have := (List.getElem?_eq_some_iff.1 h1).1
          simpa [hu] using this
        rw [fresh (by omega) this, hlive] at hh
        cases hh
      have : u.life h = t.life h := by
        simp only [hu]
        rw [if_neg (by omega)]
      rw [this] at hh
      refine H.dead h m' hh ?_
      simpa [hu, List.getElem?_append_left hlt] using h1
  · intro h hh g hg
    obtain ⟨h1, ⟨h2, h3⟩ | ⟨h2, h3, h4⟩⟩ := live hh
    · rw [h3] at hg
      obtain ⟨h5, h6⟩ := H.lent h h2 g hg
      have : g ∉ hs := fun hgs => hl g hgs h h2 hg
      exact ⟨h5, by rw [back this, old h6]; exact h6⟩
    · rw [h4] at hg
      obtain ⟨h5, h6⟩ := hlend g hg
      have := H.bound g h5
      exact ⟨by omega, by rw [back h6, old h5]; exact h5⟩
  · intro h m hh hm b hb
    obtain ⟨h1, ⟨h2, h3⟩ | ⟨h2, h3, h4⟩⟩ := live hh
    · rw [h3]
      rcases H.cover h m h2 (get (H.bound h h2) h1 hm) b hb with h | h | ⟨k, hk, mk, hmk, hbk⟩
      · exact .inl h
      · exact .inr (.inl h)
      · exact .inr (.inr ⟨k, hk, mk, get' (fun hks => hl k hks h h2 hk) hmk, hbk⟩)
    · rw [h4]
      rcases hcover m (getNew h2 h1 hm) b hb with h | h | ⟨k, hk, mk, hmk, hbk⟩
      · exact .inl h
      · exact .inr (.inl h)
      · exact .inr (.inr ⟨k, hk, mk, get' (hlend k hk).2 hmk, hbk⟩)
  · intro h hh b hb
    show b < mem.bufs.length ∧ b ∉ t.freed ∧ b ∉ program
    obtain ⟨h1, ⟨h2, h3⟩ | ⟨h2, h3, h4⟩⟩ := live hh
    · rw [h3] at hb
      obtain ⟨h4, h5, h6⟩ := H.owns h h2 b hb
      refine ⟨by omega, h5, fun h' => ?_⟩
      rcases (hp' b h').2 with h' | h'
      · exact h6 h'
      · omega
    · rw [h4] at hb
      obtain ⟨h5, h6, h7, -⟩ := howns b hb
      exact ⟨h5, h6, h7⟩
  · intro h hh
    obtain ⟨h1, ⟨h2, h3⟩ | ⟨h2, h3, h4⟩⟩ := live hh
    · rw [h3]; exact H.nodup h h2
    · rw [h4]; exact hnodup
  · intro g h hg hh b hbg hbh
    obtain ⟨g1, ⟨g2, g3⟩ | ⟨g2, g3, g4⟩⟩ := live hg
    · rw [g3] at hbg
      obtain ⟨h1, ⟨h2, h3⟩ | ⟨h2, h3, h4⟩⟩ := live hh
      · rw [h3] at hbh
        exact H.unique g h g2 h2 b hbg hbh
      · rw [h4] at hbh
        exact absurd ((howns b hbh).2.2.2 g g2 hbg) g1
    · rw [g4] at hbg
      obtain ⟨h1, ⟨h2, h3⟩ | ⟨h2, h3, h4⟩⟩ := live hh
      · rw [h3] at hbh
        exact absurd ((howns b hbg).2.2.2 h h2 hbh) h1
      · have := List.ne_nil_of_mem hbg
        rw [one this g2 g3, one this h2 h3]
  · intro h hh b hb
    show b ∈ program ∧ b ∉ t.freed
    obtain ⟨h1, ⟨h2, h3⟩ | ⟨h2, h3, h4⟩⟩ := live hh
    · rw [h3] at hb
      obtain ⟨h4, h5⟩ := H.slices h h2 b hb
      exact ⟨hp b h4, h5⟩
    · rw [h4] at hb
      exact hslices b hb
  · intro b hb
    show b ∈ t.freed ∨ b ∈ program ∨ _
    have new1 : b ∈ L.owns → ∃ h, ((u.leave hs).life h).live = true ∧
        b ∈ ((u.leave hs).life h).owns := by
      intro hbo
      have := hone (List.ne_nil_of_mem hbo)
      have hh : t.st.mats.length ∉ hs := fun hh => absurd (H.bound _ (hv _ hh)) (by omega)
      refine ⟨t.st.mats.length, ?_⟩
      rw [back hh, fresh (le_refl _) (by omega)]
      exact ⟨hlive, hbo⟩
    by_cases hlt : b < t.st.mem.bufs.length
    · rcases H.complete b hlt with h | h | ⟨h, h1, h2⟩
      · exact .inl h
      · exact .inr (.inl (hp b h))
      · by_cases hh : h ∈ hs
        · exact .inr (.inr (new1 (htrans h hh b h2)))
        · exact .inr (.inr ⟨h, by rw [back hh, old h1]; exact h1, by rw [back hh, old h1]; exact h2⟩)
    · rcases hcomplete b hb (by omega) with h | h
      · exact .inr (.inl h)
      · exact .inr (.inr (new1 h))
  · intro b hb
    exact (hp' b hb).1
  · intro b hb
    have := H.freed b hb
    show b < mem.bufs.length
    omega
  · exact H.once

theorem moves_operands (op : Op α) : ∀ h ∈ op.moves ++ op.borrows, h ∈ op.operands := by
  cases op with
  | add rl rr a b => cases rl <;> cases rr <;> simp [Op.moves, Op.borrows, Op.operands]
  | scale sf br x h => cases br <;> simp [Op.moves, Op.borrows, Op.operands]
  | _ => simp [Op.moves, Op.borrows, Op.operands]

theorem owns_alone {op : Op α} (h : op.owns = true) : op.moves = [] ∧ op.borrows = [] := by
  cases op <;> simp [Op.owns] at h <;> exact ⟨rfl, rfl⟩

theorem wraps_owns {op : Op α} (h : op.owns = false) : op.wrapsSlice = false := by
  cases op <;> simp [Op.owns] at h <;> rfl

section

variable [Zero α] [One α] [Add α] [Mul α]

theorem OwnedBy.after [Target] [Kept P] {cfg : Cfg} {kern : Kern α} {t : LSt α} (H : OwnedBy P t) {op : Op α} {o : Obs α}
    {s' : St α} (h : op.exec cfg kern t.st = .ok (o, s')) (hi : ∀ m ∈ s'.mats, P s'.mem m) (ha : Admitted t (.run op)) :
    OwnedBy P (t.after op s') := by
  obtain ⟨hv, hl, hn, hmb⟩ := ha
  have hmv : ∀ h ∈ op.moves, (t.life h).live = true := fun h hh =>
    hv h (moves_operands op h (List.mem_append_left _ hh))
  cases ho : op.owns with
  | true =>
    obtain ⟨hm, hb⟩ := owns_alone ho
    obtain rfl := owns_done ho h
    obtain ⟨-, e1, e2, -, -⟩ := C73_operation cfg kern t.st s' op .done (by simp [Op.step, h])
    obtain ⟨b, e3, e4⟩ := e2 (by simp [Op.allocations, ho])
    have e1 : s'.mem.bufs.length = t.st.mem.bufs.length + 1 := by
      simpa [Op.allocations, ho] using e1
    obtain ⟨mem, mats⟩ := s'
    simp only at e1 e3
    subst e3
    unfold LSt.after
    have hL1 : (t.newLife op).lenders = [] := by simp [LSt.newLife, hm, hb]
    cases hw : op.wrapsSlice with
    | true =>
      have hL2 : (t.newLife op).owns = [] := by simp [LSt.newLife, ho, hw]
      have hL3 : (t.newLife op).slices = [t.st.mem.bufs.length] := by simp [LSt.newLife, hw]
      refine H.grow (new := [.base b]) rfl hi hl hmv ?_ ?_ ?_ ?_ ?_ ?_ ?_ ?_ ?_ ?_ ?_
      · simp [storage, e4, hL3]
      · simp [hL1]
      · simp [hL2]
      · simp [hL2]
      · simp [hL2]
      · intro x hx
        obtain rfl : x = t.st.mem.bufs.length := by simpa [hL3] using hx
        exact ⟨by simp, fun hf => absurd (H.freed _ hf) (by omega)⟩
      · intro x hx; simp [hx]
      · intro x hx
        simp only [if_true, List.mem_cons] at hx
        rcases hx with rfl | hx
        · exact ⟨by omega, .inr (le_refl _)⟩
        · have := H.program x hx
          exact ⟨by omega, .inl hx⟩
      · omega
      · intro x h1 h2
        simp only [if_true, List.mem_cons]
        exact .inl (.inl (by omega))
      · simp [hm]
    | false =>
      have hL2 : (t.newLife op).owns = [t.st.mem.bufs.length] := by simp [LSt.newLife, ho, hw]
      have hL3 : (t.newLife op).slices = [] := by simp [LSt.newLife, hw, hm]
      refine H.grow (new := [.base b]) rfl hi hl hmv ?_ ?_ ?_ ?_ ?_ ?_ ?_ ?_ ?_ ?_ ?_
      · simp [storage, e4, hL2]
      · simp [hL1]
      · simp only [hL2, List.mem_singleton, forall_eq, Bool.false_eq_true, if_false]
        refine ⟨by omega, fun hf => absurd (H.freed _ hf) (by omega),
          fun hp => absurd (H.program _ hp) (by omega), fun g hg hb' => ?_⟩
        exact absurd (H.owns g hg _ hb').1 (by omega)
      · simp [hL2]
      · simp
      · simp [hL3]
      · intro x hx; simpa using hx
      · intro x hx
        simp only [Bool.false_eq_true, if_false] at hx
        have := H.program x hx
        exact ⟨by omega, .inl hx⟩
      · omega
      · intro x h1 h2
        simp only [hL2, List.mem_singleton]
        exact .inr (by omega)
      · simp [hm]
  | false =>
    have hw := wraps_owns ho
    obtain ⟨-, e1, new, e2, e3, e4⟩ := exec_storage h ho
    obtain ⟨mem, mats⟩ := s'
    simp only at e1 e2
    subst e2
    unfold LSt.after
    have hL1 : ∀ x, x ∈ (t.newLife op).lenders ↔ x ∈ op.borrows ∨
        ∃ h ∈ op.moves, x ∈ (t.life h).lenders := by simp [LSt.newLife]
    have hL2 : ∀ x, x ∈ (t.newLife op).owns ↔ ∃ h ∈ op.moves, x ∈ (t.life h).owns := by
      simp [LSt.newLife, ho]
    have hL3 : ∀ x, x ∈ (t.newLife op).slices ↔ ∃ h ∈ op.moves, x ∈ (t.life h).slices := by
      simp [LSt.newLife, hw]
    simp only [hw, Bool.false_eq_true, if_false]
    refine H.grow rfl hi hl hmv ?_ ?_ ?_ ?_ ?_ ?_ ?_ ?_ ?_ ?_ ?_
    · intro m hm b hb
      obtain ⟨k, hk, mk, hmk, hbk⟩ := e4 m hm b hb
      rcases List.mem_append.1 hk with hk | hk
      · rcases H.cover k mk (hmv k hk) hmk b hbk with h' | h' | ⟨g, hg, mg, hmg, hbg⟩
        · exact .inl ((hL2 b).2 ⟨k, hk, h'⟩)
        · exact .inr (.inl ((hL3 b).2 ⟨k, hk, h'⟩))
        · exact .inr (.inr ⟨g, (hL1 g).2 (.inr ⟨k, hk, hg⟩), mg, hmg, hbg⟩)
      · exact .inr (.inr ⟨k, (hL1 k).2 (.inl hk), mk, hmk, hbk⟩)
    · intro g hg
      rcases (hL1 g).1 hg with hg | ⟨k, hk, hg⟩
      · exact ⟨hv g (moves_operands op g (List.mem_append_right _ hg)), fun h' => hmb g h' hg⟩
      · exact ⟨(H.lent k (hmv k hk) g hg).2, fun h' => hl g h' k (hmv k hk) hg⟩
    · intro b hb
      obtain ⟨k, hk, hb⟩ := (hL2 b).1 hb
      obtain ⟨h1, h2, h3⟩ := H.owns k (hmv k hk) b hb
      refine ⟨by omega, h2, h3, fun g hg hbg => ?_⟩
      rw [H.unique g k hg (hmv k hk) b hbg hb]
      exact hk
    · simp only [LSt.newLife, ho, Bool.false_eq_true, if_false]
      rw [List.nodup_flatMap]
      refine ⟨fun h hh => H.nodup h (hmv h hh), ?_⟩
      refine hn.imp_of_mem fun {a b} ha hb hab => ?_
      intro x hxa hxb
      exact hab (H.unique a b (hmv a ha) (hmv b hb) x hxa hxb)
    · intro hne
      refine e3 fun hm => hne ?_
      simp [LSt.newLife, ho, hm]
    · intro b hb
      obtain ⟨k, hk, hb⟩ := (hL3 b).1 hb
      exact H.slices k (hmv k hk) b hb
    · exact fun b hb => hb
    · intro b hb
      have := H.program b hb
      exact ⟨by omega, .inl hb⟩
    · omega
    · intro b h1 h2; omega
    · intro k hk b hb
      exact (hL2 b).2 ⟨k, hk, hb⟩

/-- One step keeps the invariant. -/
theorem life_step_by [Target] [Kept P] {cfg : Cfg} {kern : Kern α} {t : LSt α} (H : OwnedBy P t)
    {op : LOp α} (ha : Admitted t op)
    (hc : ∀ p, op = .run p → p.exec cfg kern t.st = .panic ∨
      ∃ o s', p.exec cfg kern t.st = .ok (o, s') ∧ ∀ m ∈ s'.mats, P s'.mem m) :
    ∃ o t', op.step cfg kern t = some (o, t') ∧ OwnedBy P t' ∧ (∀ b ∈ t.program, b ∈ t'.program) ∧
      ∀ b ∈ t'.freed, b ∈ t'.program → b ∈ t.freed ∧ b ∈ t.program ∨ op = .dropSlice b := by
  cases op with
  | run op =>
    rcases hc op rfl with e | ⟨o, s', e, hi⟩
    · obtain ⟨hv, hl, hn, -⟩ := ha
      obtain ⟨t', h1, h2, -, h3, h4⟩ := H.drop hn
        (fun h hh => hv h (moves_operands op h (List.mem_append_left _ hh))) hl
      refine ⟨.panicked, t', by simp [LOp.step, e, h1], h2, by simp [h3], fun b hb hp => ?_⟩
      rw [h3] at hp
      exact .inl ⟨(h4 b hb).resolve_right fun h => h hp, hp⟩
    · have hp : ∀ b ∈ (t.after op s').program, b ∈ t.program ∨ b = t.st.mem.bufs.length := by
        intro b hb
        simp only [LSt.after, LSt.leave] at hb
        split at hb
        · rcases List.mem_cons.1 hb with h | h
          · exact .inr h
          · exact .inl h
        · exact .inl hb
      refine ⟨o, t.after op s', by simp [LOp.step, e], H.after e hi ha, ?_, ?_⟩
      · intro b hb
        simp only [LSt.after, LSt.leave]
        split
        · exact List.mem_cons_of_mem _ hb
        · exact hb
      · intro b hb hb'
        have hb : b ∈ t.freed := hb
        rcases hp b hb' with h | rfl
        · exact .inl ⟨hb, h⟩
        · exact absurd (H.freed _ hb) (by omega)
  | drop h =>
    obtain ⟨t', h1, h2, -, h3, h4⟩ := H.drop (hs := [h]) (by simp) (by simpa using ha.1)
      (by simpa using ha.2)
    refine ⟨.done, t', by simp [LOp.step, h1], h2, by simp [h3], fun b hb hp => ?_⟩
    rw [h3] at hp
    exact .inl ⟨(h4 b hb).resolve_right fun h => h hp, hp⟩
  | dropSlice b =>
    obtain ⟨t', h1, h2, -, h3, h4⟩ := H.dropSlice ha.1 ha.2.1 ha.2.2
    refine ⟨.done, t', by simp [LOp.step, h1], h2, by simp [h3], fun x hx hp => ?_⟩
    rw [h3] at hp
    rcases h4 x hx with h | rfl
    · exact .inl ⟨h, hp⟩
    · exact .inr rfl

theorem life_step_of [Target] {cfg : Cfg} {kern : Kern α} {t : LSt α} (H : Owned t) {op : LOp α}
    (ha : Admitted t op) (hc : ∀ p, op = .run p → StepOK (p.exec cfg kern t.st) t.st) :
    ∃ o t', op.step cfg kern t = some (o, t') ∧ Owned t' ∧ (∀ b ∈ t.program, b ∈ t'.program) ∧
      ∀ b ∈ t'.freed, b ∈ t'.program → b ∈ t.freed ∧ b ∈ t.program ∨ op = .dropSlice b :=
  life_step_by H ha fun p hp => (hc p hp).imp id fun ⟨o, s', e, hi, _⟩ => ⟨o, s', e, hi⟩

theorem life_step [Target] {cfg : Cfg} {kern : Kern α} {t : LSt α} (H : Owned t) {op : LOp α}
    (ha : Admitted t op) (hc : Careful cfg t op) :
    ∃ o t', op.step cfg kern t = some (o, t') ∧ Owned t' ∧ (∀ b ∈ t.program, b ∈ t'.program) ∧
      ∀ b ∈ t'.freed, b ∈ t'.program → b ∈ t.freed ∧ b ∈ t.program ∨ op = .dropSlice b := by
  refine life_step_of H ha ?_
  rintro p rfl
  exact step_good cfg kern t.st H.inv p hc.1 hc.2.1 hc.2.2.1 hc.2.2.2

theorem life_run [Target] {cfg : Cfg} {kern : Kern α} {t : LSt α} (H : Owned t) {ops : List (LOp α)}
    (h : AlongLife cfg kern (fun t op => Admitted t op ∧ Careful cfg t op) t ops) :
    ∃ os t', runLife cfg kern t ops = some (os, t') ∧ os.length = ops.length ∧ Owned t' ∧
      (∀ b ∈ t.program, b ∈ t'.program) ∧
      ∀ b ∈ t'.freed, b ∈ t'.program → b ∈ t.freed ∧ b ∈ t.program ∨ .dropSlice b ∈ ops := by
  induction ops generalizing t with
  | nil => exact ⟨[], t, rfl, rfl, H, fun _ h => h, fun b h1 h2 => .inl ⟨h1, h2⟩⟩
  | cons op ops ih =>
    obtain ⟨⟨h1, h2⟩, h3⟩ := h
    obtain ⟨o, t1, e1, H1, p1, f1⟩ := life_step (kern := kern) H h1 h2
    obtain ⟨os, t2, e2, l2, H2, p2, f2⟩ := ih H1 (h3 o t1 e1)
    refine ⟨o :: os, t2, by simp [runLife, e1, e2], by simp [l2], H2,
      fun b hb => p2 b (p1 b hb), fun b hb hp => ?_⟩
    rcases f2 b hb hp with ⟨h4, h5⟩ | h4
    · rcases f1 b h4 h5 with h6 | rfl
      · exact .inl h6
      · exact .inr (by simp)
    · exact .inr (by simp [h4])

/-- **C76**, no use after free and no double free: a program with drops that the borrow checker
admits runs to its end without undefined behaviour: no freed allocation is read, written or freed
again; what the program still has can be accessed everywhere. -/
theorem C76_no_use_after_free [Target] (cfg : Cfg) (kern : Kern α) (ops : List (LOp α))
    (h : AlongLife cfg kern (fun t op => Admitted t op ∧ Careful cfg t op) LSt.init ops) :
    ∃ os t, runLife cfg kern LSt.init ops = some (os, t) ∧ os.length = ops.length ∧
      Accessible cfg t.st ∧ t.freed.Nodup := by
  obtain ⟨os, t, e, l, H, -, -⟩ := life_run owned_init h
  exact ⟨os, t, e, l, H.inv.accessible cfg, H.once⟩

/-- **C76**, no leak: at every time each allocation of the library has either been freed, exactly
once, or belongs to exactly one value that the program still has; when all values are gone,
everything has been freed. The library frees nothing that belongs to the program. -/
theorem C76_no_leak [Target] (cfg : Cfg) (kern : Kern α) (ops : List (LOp α))
    (h : AlongLife cfg kern (fun t op => Admitted t op ∧ Careful cfg t op) LSt.init ops)
    {os : List (Obs α)} {t : LSt α} (e : runLife cfg kern LSt.init ops = some (os, t)) :
    (∀ b, b < t.st.mem.bufs.length → b ∉ t.program →
      (t.freed.count b = 1 ∧ ∀ h, (t.life h).live = true → b ∉ (t.life h).owns) ∨
      (b ∉ t.freed ∧ ∃ h, ((t.life h).live = true ∧ b ∈ (t.life h).owns) ∧
        ∀ g, (t.life g).live = true → b ∈ (t.life g).owns → g = h)) ∧
    ((∀ h, (t.life h).live = false) →
      ∀ b, b < t.st.mem.bufs.length → b ∉ t.program → t.freed.count b = 1) ∧
    (∀ b ∈ t.program, b ∈ t.freed → .dropSlice b ∈ ops) := by
  obtain ⟨os', t', e', -, H, -, hf⟩ := life_run owned_init h
  rw [e] at e'
  obtain ⟨rfl, rfl⟩ : os = os' ∧ t = t' := by simpa using e'
  have one : ∀ b, b < t.st.mem.bufs.length → b ∉ t.program →
      (t.freed.count b = 1 ∧ ∀ h, (t.life h).live = true → b ∉ (t.life h).owns) ∨
      (b ∉ t.freed ∧ ∃ h, ((t.life h).live = true ∧ b ∈ (t.life h).owns) ∧
        ∀ g, (t.life g).live = true → b ∈ (t.life g).owns → g = h) := by
    intro b hb hp
    by_cases hbf : b ∈ t.freed
    · exact .inl ⟨List.count_eq_one_of_mem H.once hbf, fun h hh ho => (H.owns h hh b ho).2.1 hbf⟩
    · rcases H.complete b hb with h | h | ⟨h, h1, h2⟩
      · exact absurd h hbf
      · exact absurd h hp
      · exact .inr ⟨hbf, h, ⟨h1, h2⟩, fun g hg hbg => H.unique g h hg h1 b hbg h2⟩
  refine ⟨one, fun hd b hb hp => ?_, fun b hb hbf => ?_⟩
  · rcases one b hb hp with h | ⟨-, h, ⟨h1, -⟩, -⟩
    · exact h.1
    · rw [hd h] at h1; cases h1
  · rcases hf b hbf hb with ⟨h, -⟩ | h
    · simp [LSt.init] at h
    · exact h

/-! ### Drops change nothing else -/

/-- A program with drops next to the same program without them. -/
structure SameButDrops (t : LSt α) (s : St α) : Prop where
  nbufs : t.st.mem.bufs.length = s.mem.bufs.length
  len : t.st.mats.length = s.mats.length
  mats : ∀ h, (t.life h).live = true → t.st.mats[h]? = s.mats[h]?
  bufs : ∀ b, b ∉ t.freed → t.st.mem.bufs[b]? = s.mem.bufs[b]?

omit [Zero α] [One α] [Add α] [Mul α] in
/-- Values that are still there have all their storage. -/
theorem OwnedBy.stored {t : LSt α} (H : OwnedBy P t) (g : Nat) (hg : (t.life g).live = true) (m : Mat α)
    (hm : t.st.mats[g]? = some m) : StoredIn (fun b => b ∉ t.freed) m := by
  induction g using Nat.strong_induction_on generalizing m with
  | _ g ih =>
    intro b hb
    rcases H.cover g m hg hm b hb with h | h | ⟨k, hk, mk, hmk, hbk⟩
    · exact (H.owns g hg b h).2.1
    · exact (H.slices g hg b h).2
    · obtain ⟨hlt, hkl⟩ := H.lent g hg k hk
      exact ih k hlt hkl mk hmk b hbk

omit [Zero α] [One α] [Add α] [Mul α] in
theorem SameButDrops.shrunk {t t' : LSt α} {s : St α} (h : SameButDrops t s) (hs : Shrunk t t') :
    SameButDrops t' s :=
  ⟨hs.nbufs.trans h.nbufs, hs.len.trans h.len,
    fun g hg => (hs.mats g hg).2.trans (h.mats g (hs.mats g hg).1),
    fun b hb => (hs.bufs b hb).2.trans (h.bufs b (hs.bufs b hb).1)⟩

theorem same_step [Target] [Kept P] {cfg : Cfg} {kern : Kern α} {t t' : LSt α} {s : St α} (H : OwnedBy P t)
    (hs : SameButDrops t s) {op : LOp α} (ha : Admitted t op) {o : Obs α}
    (e : op.step cfg kern t = some (o, t')) :
    match op with
    | .run op => ∃ s', op.step cfg kern s = some (o, s') ∧ SameButDrops t' s'
    | _ => SameButDrops t' s := by
  cases op with
  | run op =>
    have hv := ha.1
    have F := frame_op (P := fun b => b ∉ t.freed) cfg kern (s := t.st) (s' := s)
      ⟨hs.nbufs, hs.bufs, fun b hb hf => absurd (H.freed b hf) (by omega)⟩ op
      (fun h hh => hs.mats h (hv h hh)) (fun h hh m hm => H.stored h (hv h hh) m hm)
    simp only [LOp.step] at e
    show ∃ s', op.step cfg kern s = some (o, s') ∧ SameButDrops t' s'
    unfold Op.step
    revert F e
    generalize op.exec cfg kern t.st = x
    generalize op.exec cfg kern s = y
    intro e F
    cases F with
    | ub => cases e
    | panic =>
      obtain ⟨t1, h1, -, h2, -, -⟩ := H.drop ha.2.2.1
        (fun h hh => hv h (moves_operands op h (List.mem_append_left _ hh))) ha.2.1
      simp only [h1, Option.map_some, Option.some.injEq, Prod.mk.injEq] at e
      obtain ⟨rfl, rfl⟩ := e
      exact ⟨s, rfl, hs.shrunk h2⟩
    | @ok x y hxy =>
      obtain ⟨o1, s1⟩ := x
      obtain ⟨o2, s2⟩ := y
      obtain ⟨h1, ⟨new, h2, h3⟩, h4⟩ := hxy
      simp only [Option.some.injEq, Prod.mk.injEq] at e
      obtain ⟨rfl, rfl⟩ := e
      simp only at h1 h2 h3
      subst h1
      refine ⟨s2, rfl, h4.nbufs, ?_, ?_, h4.bufs⟩
      · simp [LSt.after, LSt.leave, h2, h3, hs.len]
      · intro h hh
        obtain ⟨g1, g2, -⟩ := leave_live hh
        simp only [LSt.after]
        rw [leave_get_other g1]
        simp only [h2, h3]
        by_cases hlt : h < t.st.mats.length
        · rw [List.getElem?_append_left hlt, List.getElem?_append_left (by rw [← hs.len]; exact hlt)]
          refine hs.mats h ?_
          simpa [h2, show ¬ t.st.mats.length ≤ h by omega] using g2
        · rw [List.getElem?_append_right (by omega), List.getElem?_append_right
            (by rw [← hs.len]; omega), hs.len]
  | drop h =>
    obtain ⟨t1, h1, -, h2, -, -⟩ := H.drop (hs := [h]) (by simp) (by simpa using ha.1)
      (by simpa using ha.2)
    simp only [LOp.step, h1, Option.map_some, Option.some.injEq, Prod.mk.injEq] at e
    obtain ⟨rfl, rfl⟩ := e
    exact hs.shrunk h2
  | dropSlice b =>
    obtain ⟨t1, h1, -, h2, -, -⟩ := H.dropSlice ha.1 ha.2.1 ha.2.2
    simp only [LOp.step, h1, Option.map_some, Option.some.injEq, Prod.mk.injEq] at e
    obtain ⟨rfl, rfl⟩ := e
    exact hs.shrunk h2

theorem same_run [Target] {cfg : Cfg} {kern : Kern α} {t t' : LSt α} {s : St α} (H : Owned t)
    (hs : SameButDrops t s) {ops : List (LOp α)}
    (h : AlongLife cfg kern (fun t op => Admitted t op ∧ Careful cfg t op) t ops)
    {os : List (Obs α)} (e : runLife cfg kern t ops = some (os, t')) :
    ∃ s', runProgram cfg kern s (withoutDrops ops) = some (returned ops os, s') ∧
      SameButDrops t' s' := by
  induction ops generalizing t s os with
  | nil =>
    simp only [runLife, Option.some.injEq, Prod.mk.injEq] at e
    obtain ⟨rfl, rfl⟩ := e
    exact ⟨s, rfl, hs⟩
  | cons op ops ih =>
    obtain ⟨⟨h1, h2⟩, h3⟩ := h
    simp only [runLife, Option.bind_eq_bind, Option.bind_eq_some_iff, Option.pure_def,
      Option.some.injEq, Prod.mk.injEq] at e
    obtain ⟨⟨o, t1⟩, e1, ⟨os1, t2⟩, e2, rfl, rfl⟩ := e
    obtain ⟨o', t1', e1', H1, -, -⟩ := life_step (kern := kern) H h1 h2
    obtain ⟨rfl, rfl⟩ : o = o' ∧ t1 = t1' := by simpa [e1] using e1'
    have hst := same_step H hs h1 e1
    cases op with
    | run op =>
      obtain ⟨s1, hs1, hsb⟩ := hst
      obtain ⟨s2, hs2, hsb2⟩ := ih H1 hsb (h3 o t1 e1) e2
      refine ⟨s2, ?_, hsb2⟩
      have : withoutDrops (.run op :: ops) = op :: withoutDrops ops := rfl
      rw [this]
      simp [runProgram, hs1, hs2, returned]
    | drop h => exact ih H1 hst (h3 o t1 e1) e2
    | dropSlice b => exact ih H1 hst (h3 o t1 e1) e2

/-- **C76**, drops change nothing else: the operations of the library return the same in a program
with drops (and moves) as in the program without them; the values that are still there are the same,
and so is all memory that has not been freed. So everything that is proved of programs without drops
holds for programs with drops. -/
theorem C76_same_results [Target] (cfg : Cfg) (kern : Kern α) (ops : List (LOp α))
    (h : AlongLife cfg kern (fun t op => Admitted t op ∧ Careful cfg t op) LSt.init ops)
    {os : List (Obs α)} {t : LSt α} (e : runLife cfg kern LSt.init ops = some (os, t)) :
    ∃ s, runProgram cfg kern St.init (withoutDrops ops) = some (returned ops os, s) ∧
      (∀ h, (t.life h).live = true → t.st.mats[h]? = s.mats[h]?) ∧
      ∀ q, q.buf ∉ t.freed → t.st.mem.get? q = s.mem.get? q := by
  obtain ⟨s, h1, h2⟩ := same_run owned_init ⟨rfl, rfl, fun _ _ => rfl, fun _ _ => rfl⟩ h e
  exact ⟨s, h1, h2.mats, fun q hq => by unfold Mem.get?; rw [h2.bufs _ hq]⟩

end

/-! ### Examples -/

/-- A check of the conditions that can be computed. -/
def checkOp (t : LSt Int) : LOp Int → Bool
  | .run op => decide (∀ h ∈ op.operands, (t.life h).live = true) &&
      decide (∀ h ∈ op.moves, ∀ g, g < t.st.mats.length → (t.life g).live = true →
        h ∉ (t.life g).lenders) && decide op.moves.Nodup &&
      decide (∀ h ∈ op.moves, h ∉ op.borrows) &&
      (match op with
        | .fromSlice _ _ _ l => isBaseLayout l
        | .fromVector _ _ _ l => isBaseLayout l
        | .matmul .. => false
        | .block _ _ d => decide (1 ≤ d.1 ∧ 1 ≤ d.2)
        | _ => true)
  | .drop h => (t.life h).live && decide (∀ g, g < t.st.mats.length → (t.life g).live = true →
      h ∉ (t.life g).lenders)
  | .dropSlice b => decide (b ∈ t.program ∧ b ∉ t.freed) &&
      decide (∀ g, g < t.st.mats.length → (t.life g).live = true → b ∉ (t.life g).slices)

def checkRun [Target] : LSt Int → List (LOp Int) → Bool
  | _, [] => true
  | t, op :: ops => checkOp t op && match op.step dbg exactKern t with
    | some (_, t') => checkRun t' ops
    | none => false

theorem checkOp_sound [Target] {t : LSt Int} (H : Owned t) {op : LOp Int} (h : checkOp t op = true) :
    Admitted t op ∧ Careful dbg t op := by
  cases op with
  | run op =>
    simp only [checkOp, Bool.and_eq_true, decide_eq_true_eq] at h
    obtain ⟨⟨⟨⟨h1, h2⟩, h3⟩, h4⟩, h5⟩ := h
    refine ⟨⟨h1, fun h hh g hg => h2 h hh g (H.bound g hg) hg, h3, h4⟩, ?_⟩
    cases op <;> simp at h5 <;> simp [Careful, NoStrides, NoOverlap, NoEmptyBlock, h5]
  | drop h =>
    simp only [checkOp, Bool.and_eq_true, decide_eq_true_eq] at h
    exact ⟨⟨h.1, fun g hg => h.2 g (H.bound g hg) hg⟩, trivial⟩
  | dropSlice b =>
    simp only [checkOp, Bool.and_eq_true, decide_eq_true_eq] at h
    exact ⟨⟨h.1.1, h.1.2, fun g hg => h.2 g (H.bound g hg) hg⟩, trivial⟩

theorem checkRun_sound [Target] {t : LSt Int} (H : Owned t) {ops : List (LOp Int)}
    (h : checkRun t ops = true) :
    AlongLife dbg exactKern (fun t op => Admitted t op ∧ Careful dbg t op) t ops := by
  induction ops generalizing t with
  | nil => trivial
  | cons op ops ih =>
    simp only [checkRun, Bool.and_eq_true] at h
    have h1 := checkOp_sound H h.1
    refine ⟨h1, fun o t' e => ?_⟩
    obtain ⟨o', t1, e1, H1, -, -⟩ := life_step (cfg := dbg) (kern := exactKern) H h1.1 h1.2
    obtain ⟨rfl, rfl⟩ : o = o' ∧ t' = t1 := by simpa [e] using e1
    exact ih H1 (by simpa [e] using h.2)

/-- `let a = mat![2 × 2]; let v = a.block(..); let e = (&a + v) * 2; let r = e.eval(); drop(e);
drop(a)`, then a sum of matrices of different shapes, which panics and drops both, and a slice of the
program that outlives the matrix on it. -/
def dropProgram : List (LOp Int) :=
  [.run (.zeros .rowMajor 2 2), .run (.element 0 (.set 0 1 5)), .run (.block 0 (0, 0) (2, 2)),
   .run (.add true false 0 1), .run (.scale false false 2 2), .run (.eval 3), .drop 3, .drop 0,
   .run (.get 4 0 1), .run (.zeros .rowMajor 3 3), .run (.add false false 4 5),
   .run (.fromSlice .dynamic .dynamic [7, 8] (.rowMajor ⟨(1, 2)⟩)), .run (.ref 6), .drop 7, .drop 6,
   .dropSlice 3]

example : AlongLife dbg exactKern (fun t op => Admitted t op ∧ Careful dbg t op) LSt.init
    dropProgram := checkRun_sound owned_init (by decide +kernel)

/-- The sum in the example panics; in the end everything has been freed, in this order. -/
example : (runLife dbg exactKern LSt.init dropProgram).map
    (fun x => (x.1, x.2.freed.reverse, x.2.st.mem.bufs)) =
    some ([.done, .done, .done, .done, .done, .done, .done, .done, .value 20, .done, .panicked,
      .done, .done, .done, .done, .done], [0, 1, 2, 3], [[], [], [], []]) := by decide +kernel

/-- What the rules prevent. A view that is used after its matrix was dropped reads freed memory; a
value that was moved into an expression and is dropped again is freed twice; so is a value dropped
twice. -/
example : (runLife dbg exactKern (LSt.init : LSt Int) [.run (.zeros .rowMajor 2 2),
    .run (.block 0 (0, 0) (2, 2)), .drop 0, .run (.get 1 0 0)]).isNone = true ∧
    (runLife dbg exactKern (LSt.init : LSt Int) [.run (.zeros .rowMajor 2 2),
    .run (.scale false false 3 0), .drop 1, .drop 0]).isNone = true ∧
    (runLife dbg exactKern (LSt.init : LSt Int) [.run (.zeros .rowMajor 2 2), .drop 0,
    .drop 0]).isNone = true := by decide +kernel

end Householder.Props
