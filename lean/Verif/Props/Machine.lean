import Verif.Lemmas.Machine
import Verif.Props.Modes

/-!
# C59: programs do what the documentation says

The library follows the abstract machine of `Verif.Spec.Machine`.
-/

namespace Householder.Props

open Spec

variable {α : Type}

/-! ## One step -/

/-- The state of the program corresponds to the state of the machine. -/
structure Simulates [Target] (s : St α) (t : ASt α) : Prop where
  mem : s.mem.bufs = t.stores
  vals : List.Forall₂ (RepVal s.mem) s.mats t.vals

/-- An operation and its meaning: the same observation, and corresponding states. -/
def Follows [Target] (o : Out (Obs α × St α)) (s : St α) (x : Obs α × ASt α) : Prop :=
  (o = .panic ∧ x.1 = .panicked ∧ Simulates s x.2) ∨ ∃ s', o = .ok (x.1, s') ∧ Simulates s' x.2

theorem Follows.panic [Target] {s : St α} {t : ASt α} (h : Simulates s t) : Follows .panic s t.panic :=
  .inl ⟨rfl, rfl, h⟩

theorem Simulates.mono [Target] {s : St α} {t : ASt α} (h : Simulates s t) {mem : Mem α}
    (hs : ∀ x, s.mem.size x ≤ mem.size x) : List.Forall₂ (RepVal mem) s.mats t.vals :=
  h.vals.imp fun _ _ h => h.mono hs

theorem Simulates.val [Target] {s : St α} {t : ASt α} (h : Simulates s t) (k : Nat) :
    (s.mats[k]? = none ∧ t.vals[k]? = none) ∨
      ∃ a x, s.mats[k]? = some a ∧ t.vals[k]? = some x ∧ RepVal s.mem a x :=
  forall₂_get h.vals k

theorem Simulates.base [Target] {s : St α} {t : ASt α} (h : Simulates s t) (k : Nat) :
    (s.base? k = none ∧ t.base? k = none) ∨
      ∃ b m, s.base? k = some b ∧ t.base? k = some m ∧ Rep s.mem b m := by
  unfold St.base? ASt.base?
  rcases h.val k with ⟨h1, h2⟩ | ⟨a, x, h1, h2, h3⟩
  · left; simp [h1, h2]
  · rw [h1, h2]
    cases a <;> cases x <;> first | exact h3.elim | (left; exact ⟨rfl, rfl⟩) | skip
    right; exact ⟨_, _, rfl, rfl, h3⟩

theorem Follows.withVal [Target] {s : St α} {t : ASt α} (h : Simulates s t) (k : Nat)
    {f : Mat α → Out (Obs α × St α)} {g : AVal α → Obs α × ASt α}
    (hfg : ∀ a x, s.mats[k]? = some a → t.vals[k]? = some x → RepVal s.mem a x → Follows (f a) s (g x)) :
    Follows (withSome s.mats[k]? f) s (match t.vals[k]? with | none => t.panic | some x => g x) := by
  rcases h.val k with ⟨h1, h2⟩ | ⟨a, x, h1, h2, h3⟩
  · rw [h1, h2]; exact .panic h
  · rw [h1, h2]; exact hfg a x h1 h2 h3

theorem Follows.withBase [Target] {s : St α} {t : ASt α} (h : Simulates s t) (k : Nat)
    {f : BaseMatrix → Out (Obs α × St α)} {g : AMat → Obs α × ASt α}
    (hfg : ∀ a x, s.base? k = some a → t.base? k = some x → Rep s.mem a x → Follows (f a) s (g x)) :
    Follows (withSome (s.base? k) f) s (match t.base? k with | none => t.panic | some x => g x) := by
  rcases h.base k with ⟨h1, h2⟩ | ⟨a, x, h1, h2, h3⟩
  · rw [h1, h2]; exact .panic h
  · rw [h1, h2]; exact hfg a x h1 h2 h3

theorem Follows.write [Target] {s : St α} {t : ASt α} (h : Simulates s t) {stores : List (List α)} (o : Obs α)
    (hs : ∀ x, (⟨stores⟩ : Mem α).size x = s.mem.size x) :
    Follows (.ok (o, ⟨⟨stores⟩, s.mats⟩)) s (o, ⟨stores, t.vals⟩) :=
  .inr ⟨_, rfl, rfl, h.mono fun x => by rw [hs]⟩

theorem Follows.push [Target] {s : St α} {t : ASt α} (h : Simulates s t) {ms : List (Mat α)}
    {xs : List (AVal α)} (hx : List.Forall₂ (RepVal s.mem) ms xs) :
    Follows (.ok (.done, ⟨s.mem, s.mats ++ ms⟩)) s (t.push xs) :=
  .inr ⟨_, rfl, h.mem, forall₂_append h.vals hx⟩

theorem size_append (mem : Mem α) (xs : List α) (x : Nat) :
    mem.size x ≤ (⟨mem.bufs ++ [xs]⟩ : Mem α).size x := (extends_alloc mem xs).size_le x

theorem Follows.new [Target] {s : St α} {t : ASt α} (h : Simulates s t) {b : BaseMatrix} {m : AMat}
    {xs : List α} (hR : Rep ⟨s.mem.bufs ++ [xs]⟩ b m) :
    Follows (.ok (.done, s.push (b, ⟨s.mem.bufs ++ [xs]⟩))) s
      (.done, ⟨t.stores ++ [xs], t.vals ++ [.base m]⟩) := by
  refine .inr ⟨_, rfl, ?_, forall₂_append (h.mono (size_append _ _)) (.cons hR .nil)⟩
  simp [St.push, h.mem]

/-- A new matrix. -/
theorem Follows.fresh [Target] {s : St α} {t : ASt α} (h : Simulates s t) (cfg : Cfg) {k : BaseKind}
    {d : Nat × Nat} (hd : HasShape k d) {rs cs : SizeId} {f : Nat × Nat → α}
    {o : Out (BaseMatrix × Mem α)}
    (hok : (orderOf k d).length * cfg.item.size ≤ isizeMax →
      o = .ok (⟨⟨s.mem.bufs.length, 0, (orderOf k d).length⟩, kindLayout k d, rs, cs⟩,
        ⟨s.mem.bufs ++ [(orderOf k d).map f]⟩))
    (hbad : ¬ (orderOf k d).length * cfg.item.size ≤ isizeMax → o = .panic) :
    Follows (o >>= fun x => .ok (.done, s.push x)) s (t.fresh cfg.item.size k (rs, cs) d f) := by
  unfold ASt.fresh
  simp only [List.length_map]
  split
  · rename_i hsz
    rw [hok hsz, Out.bind_ok, ← h.mem]
    have hR := rep_root (mem := s.mem) k d hd rs cs ((orderOf k d).map f)
      (by rw [List.length_map]; exact four_mul_le hsz) (by rw [List.length_map])
    rw [List.length_map] at hR
    have := Follows.new h hR
    rwa [← h.mem] at this
  · rename_i hsz
    rw [hbad hsz]; exact .panic h

theorem from_dimension_shape {k : BaseKind} {d : Nat × Nat} (hd : HasShape k d)
    (hk : k ≠ .columnVector) : k.from_dimension d = .ok (kindLayout k d) := by
  obtain ⟨r, c⟩ := d
  cases k with
  | rowMajor => rfl
  | columnMajor => rfl
  | rowVector => obtain rfl : r = 1 := hd; rfl
  | columnVector => exact absurd rfl hk
  | upperTriangular =>
    obtain rfl : r = c := hd
    simp [BaseKind.from_dimension, UpperTriangular.from_dimension, Out.assert, kindLayout]

theorem from_dimension_no_shape {k : BaseKind} {d : Nat × Nat} (hd : ¬ HasShape k d)
    (hk : k ≠ .columnVector) : k.from_dimension d = .panic := by
  obtain ⟨r, c⟩ := d
  cases k with
  | rowMajor => exact absurd trivial hd
  | columnMajor => exact absurd trivial hd
  | rowVector =>
    have : ¬ r = 1 := hd
    simp [BaseKind.from_dimension, RowVector.from_dimension, Out.assert, this]
  | columnVector => exact absurd rfl hk
  | upperTriangular =>
    have : ¬ r = c := hd
    simp [BaseKind.from_dimension, UpperTriangular.from_dimension, Out.assert, this]

theorem count_kindLayout (k : BaseKind) (d : Nat × Nat) :
    count (kindLayout k d) = (orderOf k d).length := by rw [← order_length, kindLayout_order]

theorem zeros_exact [Target] [Zero α] {cfg : Cfg} {k : BaseKind} {d : Nat × Nat}
    (hf : k.from_dimension d = .ok (kindLayout k d)) (mem : Mem α)
    (hsz : (orderOf k d).length * cfg.item.size ≤ isizeMax) :
    zeros_from_dim cfg k d.1 d.2 mem =
      .ok (⟨⟨mem.bufs.length, 0, (orderOf k d).length⟩, kindLayout k d, .dynamic, .dynamic⟩,
        ⟨mem.bufs ++ [(orderOf k d).map fun _ => 0]⟩) := by
  have := (zeros_from_dim_ok cfg (k := k) (rows := d.1) (cols := d.2) hf (kindLayout_contiguous k d)
    (by rw [count_kindLayout]; exact hsz) mem).1
  rw [this, count_kindLayout]
  simp [Mem.alloc, List.map_const']

theorem zeros_too_big [Target] [Zero α] {cfg : Cfg} (hc : cfg.overflowChecks = true) {k : BaseKind}
    {d : Nat × Nat} (hf : k.from_dimension d = .ok (kindLayout k d)) (mem : Mem α)
    (hsz : ¬ (orderOf k d).length * cfg.item.size ≤ isizeMax) :
    zeros_from_dim cfg k d.1 d.2 mem = .panic :=
  C51_partial cfg k d.1 d.2 mem _ hf (.inl hc) (by rw [count_kindLayout]; omega)

theorem row_exact [Target] [Zero α] {cfg : Cfg} (n : Nat) (mem : Mem α) (hsz : n * cfg.item.size ≤ isizeMax) :
    RowVectorD.zeros_from_length cfg n mem =
      .ok (⟨⟨mem.bufs.length, 0, n⟩, .rowVector ⟨n⟩, .fixed1, .dynamic⟩,
        ⟨mem.bufs ++ [List.replicate n 0]⟩) := (zeros_row_ok cfg hsz mem).1

theorem row_too_big [Target] [Zero α] {cfg : Cfg} (n : Nat) (mem : Mem α)
    (hsz : ¬ n * cfg.item.size ≤ isizeMax) : RowVectorD.zeros_from_length cfg n mem = .panic := by
  simp [RowVectorD.zeros_from_length, Container.newVector, hsz]

theorem col_exact [Target] [Zero α] {cfg : Cfg} (n : Nat) (mem : Mem α) (hsz : n * cfg.item.size ≤ isizeMax) :
    ColumnVectorD.zeros_from_length cfg n mem =
      .ok (⟨⟨mem.bufs.length, 0, n⟩, .columnVector ⟨n⟩, .dynamic, .fixed1⟩,
        ⟨mem.bufs ++ [List.replicate n 0]⟩) := (zeros_col_ok cfg hsz mem).1

theorem col_too_big [Target] [Zero α] {cfg : Cfg} (n : Nat) (mem : Mem α)
    (hsz : ¬ n * cfg.item.size ≤ isizeMax) : ColumnVectorD.zeros_from_length cfg n mem = .panic := by
  simp [ColumnVectorD.zeros_from_length, Container.newVector, hsz]

theorem row_follows [Target] [Zero α] {s : St α} {t : ASt α} (h : Simulates s t) (cfg : Cfg) (n : Nat) :
    Follows (RowVectorD.zeros_from_length cfg n s.mem >>= fun x => .ok (.done, s.push x)) s
      (t.fresh cfg.item.size .rowVector (.fixed1, .dynamic) (1, n) fun _ => 0) := by
  have hl : (orderOf .rowVector (1, n)).length = n := by simp [orderOf]
  refine .fresh h cfg (show HasShape _ _ from by exact rfl) (fun hsz => ?_) (fun hsz => ?_) <;> rw [hl] at hsz
  · rw [row_exact n s.mem hsz, hl, List.map_const', hl]; rfl
  · exact row_too_big n s.mem hsz

theorem col_follows [Target] [Zero α] {s : St α} {t : ASt α} (h : Simulates s t) (cfg : Cfg) (n : Nat) :
    Follows (ColumnVectorD.zeros_from_length cfg n s.mem >>= fun x => .ok (.done, s.push x)) s
      (t.fresh cfg.item.size .columnVector (.dynamic, .fixed1) (n, 1) fun _ => 0) := by
  have hl : (orderOf .columnVector (n, 1)).length = n := by simp [orderOf]
  refine .fresh h cfg (show HasShape _ _ from by exact rfl) (fun hsz => ?_) (fun hsz => ?_) <;> rw [hl] at hsz
  · rw [col_exact n s.mem hsz, hl, List.map_const', hl]; rfl
  · exact col_too_big n s.mem hsz

theorem item_small [Target] (cfg : Cfg) {n : Nat} (h : n ≤ 9) : n * cfg.item.size ≤ isizeMax := by
  have : cfg.item.size ≤ 16 := by cases cfg.item <;> decide
  calc n * cfg.item.size ≤ 9 * 16 := Nat.mul_le_mul h this
    _ ≤ isizeMax := le_trans (by decide) isizeMax_ge

theorem fixed_follows [Target] [Zero α] {s : St α} {t : ASt α} (h : Simulates s t) (cfg : Cfg) {rs cs : SizeId}
    {k : BaseKind} (hm : (rs, cs, k) ∈ fixedMatrixTypes) :
    Follows (fixed_zeros_from_dim cfg rs cs k s.mem >>= fun x => .ok (.done, s.push x)) s
      (t.fresh cfg.item.size k (rs, cs) (rs.N, cs.N) fun _ => 0) := by
  have hk : (k = .rowMajor ∨ k = .columnMajor) ∧ rs.N * cs.N ≤ 9 := by
    simp [fixedMatrixTypes] at hm
    rcases hm with h | h | h | h | h | h | h | h | h | h | h | h <;> obtain ⟨rfl, rfl, rfl⟩ := h <;>
      decide
  have hl : (orderOf k (rs.N, cs.N)).length = rs.N * cs.N := by
    rw [← count_kindLayout]
    rcases hk.1 with rfl | rfl <;> rfl
  have hf : k.from_dimension (rs.N, cs.N) = .ok (kindLayout k (rs.N, cs.N)) := by
    rcases hk.1 with rfl | rfl <;> rfl
  have hd : HasShape k (rs.N, cs.N) := by rcases hk.1 with rfl | rfl <;> trivial
  refine .fresh h cfg hd (fun hsz => ?_) (fun hsz => ?_) <;> rw [hl] at hsz
  · have := from_data_small cfg rs cs (d := ⟨s.mem.bufs.length, 0, rs.N * cs.N⟩)
      (l := kindLayout k (rs.N, cs.N)) (four_mul_le hsz) (by rw [count_kindLayout, hl])
    simp only [fixed_zeros_from_dim, Container.newArray, hf, Out.bind_ok, Mem.alloc, this, hl,
      Out.pure_eq, List.map_const']
  · exact absurd (item_small cfg hk.2) hsz

theorem fixedVector_follows [Target] [Zero α] {s : St α} {t : ASt α} (h : Simulates s t) (cfg : Cfg)
    {rs cs : SizeId} {k : BaseKind} {n : Nat} (hm : (rs, cs, k, n) ∈ fixedVectorTypes) :
    Follows (withSome (k.from_length n) fun l =>
        fixed_zeros_from_length cfg rs cs l n s.mem >>= fun x => .ok (.done, s.push x)) s
      (t.fresh cfg.item.size k (rs, cs) (rs.N, cs.N) fun _ => 0) := by
  have hk : k.from_length n = some (kindLayout k (rs.N, cs.N)) ∧ HasShape k (rs.N, cs.N) ∧
      (orderOf k (rs.N, cs.N)).length = n ∧ n ≤ 9 := by
    simp [fixedVectorTypes] at hm
    rcases hm with h | h | h | h <;> obtain ⟨rfl, rfl, rfl, rfl⟩ := h <;>
      exact ⟨rfl, by decide, by decide, by decide⟩
  obtain ⟨h1, h2, h3, h4⟩ := hk
  rw [h1]
  refine .fresh h cfg h2 (fun hsz => ?_) (fun hsz => ?_) <;> rw [h3] at hsz
  · have := from_data_small cfg rs cs (d := ⟨s.mem.bufs.length, 0, n⟩)
      (l := kindLayout k (rs.N, cs.N)) (four_mul_le hsz) (by rw [count_kindLayout, h3])
    simp only [fixed_zeros_from_length, Container.newArray, Out.bind_ok, Mem.alloc, this, h3,
      Out.pure_eq, List.map_const']
  · exact absurd (item_small cfg h4) hsz

/-! ### `from_data` -/

theorem ofLayout_kind (l : Layout) : layoutKind l = l.indexKind := by cases l <;> rfl

theorem ofLayout_dim (l : Layout) : layoutDim l = l.dim := by cases l <;> rfl

theorem ofLayout_positions (b n : Nat) (sz : SizeId × SizeId) (l : Layout) :
    (AMat.ofLayout b n sz l).positions = order l := by
  rw [order_eq_orderOf, ← ofLayout_kind, ← ofLayout_dim]; rfl

theorem ofLayout_place (b n : Nat) (sz : SizeId × SizeId) (l : Layout) {r c : Nat}
    (hs : Stored l r c) : (AMat.ofLayout b n sz l).place r c = raw l r c := by
  have key : Contiguous l → (orderOf (layoutKind l) (layoutDim l)).idxOf (r, c) = raw l r c := by
    intro hc
    rw [ofLayout_kind, ofLayout_dim, ← order_eq_orderOf, idxOf_order hs, raw_eq_index hc]
  cases l <;> first | exact key trivial | simp [AMat.ofLayout, raw, Nat.mul_comm]

theorem fromData_follows [Target] {s : St α} {t : ASt α} (h : Simulates s t) (cfg : Cfg)
    (hc : cfg.overflowChecks = true) (rs cs : SizeId) (xs : List α) (l : Layout)
    (hin : (order l).length ≤ xs.length → ∀ r c, Stored l r c → raw l r c < xs.length) :
    Follows ((if xs.length * cfg.item.size ≤ isizeMax then
        .ok (⟨s.mem.bufs.length, 0, xs.length⟩, ⟨s.mem.bufs ++ [xs]⟩) else .panic) >>=
      fun d : Container × Mem α => from_data cfg rs cs d.1 l >>= fun m => .ok (.done, s.push (m, d.2))) s
      (t.fromData cfg.item.size (rs, cs) xs l) := by
  unfold ASt.fromData
  simp only [ofLayout_positions]
  by_cases hsz : xs.length * cfg.item.size ≤ isizeMax
  · rw [if_pos hsz, Out.bind_ok]
    by_cases hn : (order l).length ≤ xs.length
    · rw [if_pos ⟨hsz, hn⟩]
      rw [order_length] at hn
      simp only
      rw [from_data_small cfg rs cs (d := ⟨s.mem.bufs.length, 0, xs.length⟩) (four_mul_le hsz) hn,
        Out.bind_ok]
      refine Follows.new h ⟨⟨⟨?_, four_mul_le hsz⟩, hin (by rwa [order_length]), hn⟩, ?_, rfl, rfl, ?_, rfl, ?_, rfl,
        ?_⟩
      · have := Mem.alloc_size_new s.mem xs
        simp only [Mem.alloc] at this
        simp [this]
      · simp [AMat.ofLayout, h.mem]
      · exact (ofLayout_kind l).symm
      · exact (ofLayout_dim l).symm
      · intro r c hs
        simp [ofLayout_place _ _ _ l hs]
    · rw [if_neg (fun h => hn h.2)]
      have : from_data cfg rs cs ⟨s.mem.bufs.length, 0, xs.length⟩ l = .panic := by
        cases hf : from_data cfg rs cs ⟨s.mem.bufs.length, 0, xs.length⟩ l with
        | panic => rfl
        | ok m =>
          have := (from_data_ok hf (.inl hc)).2
          rw [order_length] at hn
          exact absurd this hn
        | ub =>
          exfalso
          unfold from_data BaseMatrix.new at hf
          rw [Out.bind_eq_ub] at hf
          rcases hf with hf | ⟨n, -, hf⟩
          · exact number_of_elements_ne_ub cfg l hf
          · rw [Out.bind_eq_ub] at hf
            rcases hf with hf | ⟨n, -, hf⟩
            · unfold Out.assert at hf; split at hf <;> simp at hf
            · simp at hf
      simp only [this]
      exact .panic h
  · rw [if_neg hsz, if_neg (fun h => hsz h.1)]; exact .panic h

/-! ### Access -/

theorem Rep.element [Target] [Zero α] {mem : Mem α} {b : BaseMatrix} {m : AMat} (h : Rep mem b m) (cfg : Cfg)
    (op : ArrOp α) :
    (op.target m.positions = none ∧ Spec.exec cfg b mem op = .panic) ∨
    ∃ r c, op.target m.positions = some (r, c) ∧ Spec.exec cfg b mem op =
        .ok ((op.act (m.load mem.bufs r c)).1, ⟨m.save mem.bufs r c (op.act (m.load mem.bufs r c)).2⟩) ∧
      ∀ x, (⟨m.save mem.bufs r c (op.act (m.load mem.bufs r c)).2⟩ : Mem α).size x = mem.size x := by
  have hsave : ∀ r c, Stored b.layout r c → (⟨m.save mem.bufs r c (m.load mem.bufs r c)⟩ : Mem α) = mem := by
    intro r c hs
    have := save_load (mem := mem) (p := ⟨m.store, m.place r c⟩) (h.lt hs)
    cases mem
    simpa [AMat.save, AMat.load] using this
  have h1d : ∀ k, (m.positions[k]? = none ∧ ¬ k < count b.layout) ∨
      ∃ r c, m.positions[k]? = some (r, c) ∧ Stored b.layout r c ∧ k = index b.layout r c := by
    intro k
    rw [h.positions]
    by_cases hk : k < count b.layout
    · obtain ⟨r, c, hs, rfl⟩ := exists_index hk
      exact .inr ⟨r, c, order_index hs, hs, rfl⟩
    · exact .inl ⟨List.getElem?_eq_none (by rw [order_length]; omega), hk⟩
  cases op with
  | get r c =>
    by_cases hs : Stored b.layout r c
    · right
      refine ⟨r, c, if_pos (h.stored.2 hs), ?_, ?_⟩
      · simp only [ArrOp.act, hsave r c hs]
        simp [Spec.exec, h.sound.get cfg hs (h.elem hs)]
      · simp [ArrOp.act, hsave r c hs]
    · left
      exact ⟨if_neg (fun hp => hs (h.stored.1 hp)), by simp [Spec.exec, (not_stored_panic cfg b mem hs).1]⟩
  | set r c v =>
    by_cases hs : Stored b.layout r c
    · right
      obtain ⟨w1, w2⟩ := h.write hs v
      exact ⟨r, c, if_pos (h.stored.2 hs), by simp [Spec.exec, BaseMatrix.set, h.sound.get_mut cfg hs, w1, ArrOp.act],
        w2⟩
    · left
      exact ⟨if_neg (fun hp => hs (h.stored.1 hp)), by
        simp [Spec.exec, BaseMatrix.set, (not_stored_panic cfg b mem hs).2]⟩
  | update r c f =>
    by_cases hs : Stored b.layout r c
    · right
      obtain ⟨w1, w2⟩ := h.write hs (f (m.load mem.bufs r c))
      exact ⟨r, c, if_pos (h.stored.2 hs), by
        simp [Spec.exec, h.sound.get_mut cfg hs, Mem.read_ok_iff.2 (h.elem hs), w1, ArrOp.act], w2⟩
    · left
      exact ⟨if_neg (fun hp => hs (h.stored.1 hp)), by
        simp [Spec.exec, (not_stored_panic cfg b mem hs).2]⟩
  | get1d k =>
    rcases h1d k with ⟨e, hk⟩ | ⟨r, c, e, hs, rfl⟩
    · exact .inl ⟨e, by simp [Spec.exec, h.sound.get1d_panic cfg hk]⟩
    · right
      refine ⟨r, c, e, ?_, ?_⟩
      · simp only [ArrOp.act, hsave r c hs]
        simp [Spec.exec, h.sound.get1d cfg hs (h.elem hs)]
      · simp [ArrOp.act, hsave r c hs]
  | set1d k v =>
    rcases h1d k with ⟨e, hk⟩ | ⟨r, c, e, hs, rfl⟩
    · exact .inl ⟨e, by simp [Spec.exec, BaseMatrix.set1d, h.sound.get1d_mut_panic cfg hk]⟩
    · right
      obtain ⟨w1, w2⟩ := h.write hs v
      exact ⟨r, c, e, by simp [Spec.exec, BaseMatrix.set1d, h.sound.get1d_mut cfg hs, w1, ArrOp.act], w2⟩
  | update1d k f =>
    rcases h1d k with ⟨e, hk⟩ | ⟨r, c, e, hs, rfl⟩
    · exact .inl ⟨e, by simp [Spec.exec, h.sound.get1d_mut_panic cfg hk]⟩
    · right
      obtain ⟨w1, w2⟩ := h.write hs (f (m.load mem.bufs r c))
      exact ⟨r, c, e, by
        simp [Spec.exec, h.sound.get1d_mut cfg hs, Mem.read_ok_iff.2 (h.elem hs), w1, ArrOp.act], w2⟩

/-- Drawing numbers in the order of the positions. -/
theorem foldl_counter {I X : Type} (g : X → I → Nat → X) (is : List I) (k : Nat) (x : X) :
    (is.foldl (fun (y : Nat × X) i => (y.1 + 1, g y.2 i y.1)) (k, x)).2 =
      (is.zipIdx k).foldl (fun y p => g y p.1 p.2) x := by
  induction is generalizing k x with
  | nil => rfl
  | cons i is ih => simp only [List.foldl_cons, List.zipIdx_cons]; exact ih _ _

/-- Writing to a slice. -/
theorem writeList_fold {d : Container} {mem : Mem α} (hd : d.off + d.len ≤ mem.size d.buf)
    {xs : List α} (hx : xs.length ≤ d.len) :
    d.writeList mem xs = .ok ⟨xs.zipIdx.foldl (fun x p => save x d.buf (d.off + p.2) p.1) mem.bufs⟩ ∧
      ∀ y, (⟨xs.zipIdx.foldl (fun x p => save x d.buf (d.off + p.2) p.1) mem.bufs⟩ : Mem α).size y =
        mem.size y := by
  unfold Container.writeList
  rw [if_pos hx]
  have := forRange_inv (n := xs.length) (s := mem)
    (body := fun i mem => match xs[i]? with
      | some v => do
          let p ← d.get_unchecked_mut i
          mem.write p v
      | none => .panic)
    (fun i x => x.bufs = (xs.zipIdx.take i).foldl (fun x p => save x d.buf (d.off + p.2) p.1) mem.bufs ∧
      ∀ y, x.size y = mem.size y) ⟨rfl, fun _ => rfl⟩ ?_
  · obtain ⟨mem', e, h1, h2⟩ := this
    rw [List.take_of_length_le (by simp)] at h1
    rw [← h1]
    exact ⟨e, h2⟩
  · rintro i mem1 hi ⟨h1, h2⟩
    have hlt : (⟨d.buf, d.off + i⟩ : Loc).idx < mem1.size d.buf := by rw [h2]; simp only; omega
    refine ⟨⟨save mem1.bufs d.buf (d.off + i) xs[i]⟩, ?_, ?_, fun y => ?_⟩
    · simp only [List.getElem?_eq_getElem hi, Container.get_unchecked_mut_ok (show i < d.len by omega),
        Out.bind_ok]
      exact write_save xs[i] hlt
    · rw [List.take_add_one, List.foldl_append, ← h1, List.getElem?_zipIdx, List.getElem?_eq_getElem hi]
      simp
    · rw [(save_upd (p := ⟨d.buf, d.off + i⟩) xs[i] hlt).size, h2]

/-- A store filled in 1D order. -/
theorem mem_filled {bufs : List (List α)} {ps : List (Nat × Nat)} (hnd : ps.Nodup)
    {f : Nat × Nat → α} {mem' : Mem α} (hlen : mem'.bufs.length = bufs.length + 1)
    (hsize : mem'.size bufs.length = ps.length)
    (h1 : ∀ p ∈ ps, mem'.get? ⟨bufs.length, ps.idxOf p⟩ = some (f p))
    (h2 : ∀ q : Loc, q.buf < bufs.length → mem'.get? q = (⟨bufs⟩ : Mem α).get? q) :
    mem'.bufs = bufs ++ [ps.map f] := by
  have : mem' = ⟨bufs ++ [ps.map f]⟩ := by
    apply Mem.ext_get
    · simp [hlen]
    · intro q
      obtain ⟨b, i⟩ := q
      rcases lt_trichotomy b bufs.length with hb | rfl | hb
      · rw [h2 _ hb]
        exact (Mem.alloc_get_old ⟨bufs⟩ (ps.map f) (p := ⟨b, i⟩) hb).symm
      · have e := Mem.alloc_get_new ⟨bufs⟩ (ps.map f) i
        simp only [Mem.alloc] at e
        rw [e]
        by_cases hi : i < ps.length
        · have := h1 ps[i] (List.getElem_mem hi)
          rw [hnd.idxOf_getElem] at this
          rw [this]
          simp [List.getElem?_eq_getElem hi]
        · rw [List.getElem?_eq_none (by simpa using hi)]
          exact Mem.get?_eq_none (by rw [hsize]; simpa using hi)
      · rw [Mem.get?_eq_none, Mem.get?_eq_none]
        · rw [Mem.size_eq_zero (by simp only [List.length_append, List.length_cons, List.length_nil]; omega)]
          exact Nat.zero_le _
        · rw [Mem.size_eq_zero (by simp only; omega)]
          exact Nat.zero_le _
  rw [this]

/-! ### Products -/

theorem kind_notTri [Target] {mem : Mem α} {b : BaseMatrix} {m : AMat} (h : Rep mem b m) :
    m.kind ≠ .upperTriangular ↔ NotTriangular b.layout := by
  rw [← h.kind]
  unfold NotTriangular
  cases b.layout <;> simp [Layout.indexKind]

theorem rep_seen [Target] {mem : Mem α} {b : BaseMatrix} {m : AMat} (h : Rep mem b m) (ho : Honest b.layout)
    {i j : Nat} (hi : i < b.layout.dim.1) (hj : j < b.layout.dim.2) :
    seen b i j = ⟨m.store, m.place i j⟩ ∧ (i, j) ∈ m.positions := by
  have hs := (stored_of_notTri ho.notTri).2 ⟨hi, hj⟩
  exact ⟨by rw [ho.seen hi hj, h.cell hs], h.stored.2 hs⟩

/-- A product that the code gets right. -/
theorem rep_matmul [Target] [Zero α] {mem : Mem α} {a b c : BaseMatrix} {ma mb mc : AMat} (ha : Rep mem a ma)
    (hb : Rep mem b mb) (hc : Rep mem c mc) (ta : ma.Tight) (tb : mb.Tight) (tc : mc.Tight)
    (hs : mc.Simple) (hca : mc.Apart ma) (hcb : mc.Apart mb) (na : NotTriangular a.layout)
    (nb : NotTriangular b.layout) (nc : NotTriangular c.layout)
    (hd : Compatible a.layout b.layout c.layout) (kern : Kern α) (alpha beta : α) :
    ∃ mem' : Mem α, matmul kern alpha a b beta c mem = .ok mem' ∧
      mc.positions.foldl (fun x p => mc.save x p.1 p.2
        (kern ⟨mc.dim.1, mc.dim.2, p.1, p.2⟩ alpha (pairs mem.bufs ma mb p.1 p.2) beta
          (mc.load mem.bufs p.1 p.2))) mem.bufs =
        mem'.bufs ∧
      (∀ x, mem'.size x = mem.size x) ∧ mem'.bufs.length = mem.bufs.length ∧
      (∀ p ∈ mc.positions, mem'.get? ⟨mc.store, mc.place p.1 p.2⟩ =
        some (kern ⟨mc.dim.1, mc.dim.2, p.1, p.2⟩ alpha (pairs mem.bufs ma mb p.1 p.2) beta
          (mc.load mem.bufs p.1 p.2))) ∧
      ∀ q : Loc, (∀ p ∈ mc.positions, q ≠ ⟨mc.store, mc.place p.1 p.2⟩) →
        mem'.get? q = mem.get? q := by
  have oa := tight_honest ha ta na
  have ob := tight_honest hb tb nb
  have oc := tight_honest hc tc nc
  obtain ⟨mem1, e, h1, h2, h3, h4⟩ := matmul_seen (kern := kern) (alpha := alpha) (beta := beta)
    (ha.sound.seenIn oa) (hb.sound.seenIn ob) (hc.sound.seenIn oc) hd
    (fun i j i' j' hi hj hi' hj' he => by
      obtain ⟨e1, m1⟩ := rep_seen hc oc hi hj
      obtain ⟨e2, m2⟩ := rep_seen hc oc hi' hj'
      rw [e1, e2, Loc.mk.injEq] at he
      have := hs _ m1 _ m2 he.2
      simpa using this)
    (fun i j i' j' hi hj hi' hj' he => by
      obtain ⟨e1, m1⟩ := rep_seen hc oc hi hj
      obtain ⟨e2, m2⟩ := rep_seen ha oa hi' hj'
      rw [e1, e2, Loc.mk.injEq] at he
      exact hca he.1 _ m1 _ m2 he.2)
    (fun i j i' j' hi hj hi' hj' he => by
      obtain ⟨e1, m1⟩ := rep_seen hc oc hi hj
      obtain ⟨e2, m2⟩ := rep_seen hb ob hi' hj'
      rw [e1, e2, Loc.mk.injEq] at he
      exact hcb he.1 _ m1 _ m2 he.2)
    (A := fun i l => ma.load mem.bufs i l) (B := fun l j => mb.load mem.bufs l j)
    (C := fun i j => mc.load mem.bufs i j)
    (fun i l hi hl => by
      rw [oa.seen hi hl]; exact ha.elem ((stored_of_notTri na).2 ⟨hi, hl⟩))
    (fun i l hi hl => by
      rw [ob.seen hi hl]; exact hb.elem ((stored_of_notTri nb).2 ⟨hi, hl⟩))
    (fun i l hi hl => by
      rw [oc.seen hi hl]; exact hc.elem ((stored_of_notTri nc).2 ⟨hi, hl⟩))
  obtain ⟨mem2, e2, g1, g2, g3, g4⟩ := foldl_save mc.store (fun p : Nat × Nat => mc.place p.1 p.2)
    (fun p => kern ⟨mc.dim.1, mc.dim.2, p.1, p.2⟩ alpha (pairs mem.bufs ma mb p.1 p.2) beta
      (mc.load mem.bufs p.1 p.2)) mc.positions
    hs mem (fun p hp => hc.lt (hc.stored.1 hp))
  have hpos : ∀ p ∈ mc.positions, p.1 < c.layout.dim.1 ∧ p.2 < c.layout.dim.2 := by
    intro p hp
    have := (hc.stored (r := p.1) (c := p.2)).1 hp
    exact ⟨this.1, this.2.1⟩
  have hval : ∀ p ∈ mc.positions, mem1.get? ⟨mc.store, mc.place p.1 p.2⟩ =
        some (kern ⟨mc.dim.1, mc.dim.2, p.1, p.2⟩ alpha (pairs mem.bufs ma mb p.1 p.2) beta
          (mc.load mem.bufs p.1 p.2)) := by
    intro p hp
    obtain ⟨p1, p2⟩ := hpos p hp
    have := h3 p.1 p.2 p1 p2
    rw [(rep_seen hc oc p1 p2).1, ha.dim, hc.dim] at this
    exact this
  have hoth : ∀ q : Loc, (∀ p ∈ mc.positions, q ≠ ⟨mc.store, mc.place p.1 p.2⟩) →
        mem1.get? q = mem.get? q := by
    intro q hq
    refine h4 q fun i j hi hj => ?_
    obtain ⟨e1, m1⟩ := rep_seen hc oc hi hj
    rw [e1]; exact hq _ m1
  refine ⟨mem1, e, ?_, h1, h2, hval, hoth⟩
  have : mem2 = mem1 := by
    refine Mem.ext_get (by rw [g2, h2]) fun q => ?_
    by_cases hq : ∃ p ∈ mc.positions, q = ⟨mc.store, mc.place p.1 p.2⟩
    · obtain ⟨p, hp, rfl⟩ := hq
      rw [g3 p hp, hval p hp]
    · push Not at hq
      rw [g4 q hq, hoth q hq]
  rw [← this, ← e2]
  rfl

theorem matmul_refused [Target] (kern : Kern α) (alpha beta : α) {a b c : BaseMatrix} (mem : Mem α)
    (h : ¬ (Compatible a.layout b.layout c.layout ∧ NotTriangular a.layout ∧ NotTriangular b.layout ∧
      NotTriangular c.layout)) : matmul kern alpha a b beta c mem = .panic := by
  by_cases ht : NotTriangular a.layout ∧ NotTriangular b.layout ∧ NotTriangular c.layout
  · exact (C42_dimensions kern alpha beta a b c ht.1 ht.2.1 ht.2.2).1 (fun hc => h ⟨hc, ht⟩) mem
  · exact matmul_tri kern alpha beta a b c mem ht

theorem matmulImpl_iff (a b c : BaseMatrix) :
    matmulImpl a b c = true ↔ (NotTriangular a.layout ∧ NotTriangular b.layout ∧ NotTriangular c.layout) ∧
      productSizes (a.rs, a.cs) (b.rs, b.cs) = some (c.rs, c.cs) := by
  unfold matmulImpl productSizes
  simp only [Bool.and_eq_true, isStrided_iff, and_assoc, and_congr_right_iff]
  intro _ _ _
  constructor
  · intro h
    split at h <;> simp_all
  · intro h
    split at h <;> simp only [Prod.mk.injEq, Option.some.injEq, reduceCtorEq] at h <;>
      (rename_i e1 e2; simp only [Prod.mk.injEq] at e1 e2
       simp only [e1.1, e1.2, e2.1, e2.2, ← h.1, ← h.2])

/-- The size types of the product. -/
def dotSizes : DotImpl → SizeId × SizeId
  | .matMat => (.dynamic, .dynamic)
  | .rowMat => (.fixed1, .dynamic)
  | .matCol => (.dynamic, .fixed1)

theorem dotImpl_eq {a b : BaseMatrix} (ha : NotTriangular a.layout) (hb : NotTriangular b.layout) :
    productSizes (a.rs, a.cs) (b.rs, b.cs) = (dotImpl a b).map dotSizes := by
  unfold dotImpl productSizes
  rw [isStrided_iff.2 ha, isStrided_iff.2 hb, Bool.and_self, if_pos rfl]
  split <;> simp_all [dotSizes]

theorem dotImpl_tri {a b : BaseMatrix} (h : ¬ (NotTriangular a.layout ∧ NotTriangular b.layout)) :
    dotImpl a b = none := by
  unfold dotImpl
  rw [if_neg]
  simpa only [Bool.and_eq_true, isStrided_iff] using h

theorem productLayout_kindLayout (i : DotImpl) (R C : Nat) :
    productLayout i R C = kindLayout (productKind (dotSizes i)) (R, C) := by
  cases i <;> rfl

theorem dotZeros_exact [Target] [Zero α] {cfg : Cfg} (i : DotImpl) {d : Nat × Nat}
    (hd : HasShape (productKind (dotSizes i)) d) (mem : Mem α)
    (hsz : (orderOf (productKind (dotSizes i)) d).length * cfg.item.size ≤ isizeMax) :
    dotZeros cfg i d.1 d.2 mem =
      .ok (⟨⟨mem.bufs.length, 0, (orderOf (productKind (dotSizes i)) d).length⟩,
        kindLayout (productKind (dotSizes i)) d, (dotSizes i).1, (dotSizes i).2⟩,
        ⟨mem.bufs ++ [(orderOf (productKind (dotSizes i)) d).map fun _ => 0]⟩) := by
  obtain ⟨R, C⟩ := d
  cases i with
  | matMat => exact zeros_exact (k := .rowMajor) (d := (R, C)) rfl mem hsz
  | rowMat =>
    obtain rfl : R = 1 := hd
    have hl : (orderOf .rowVector (1, C)).length = C := by simp [orderOf]
    simp only [dotZeros, dotSizes, productKind, row_zeros_from_dim_eq, if_true, hl] at hsz ⊢
    rw [row_exact C mem hsz, List.map_const', hl]; rfl
  | matCol =>
    obtain rfl : C = 1 := hd
    have hl : (orderOf .columnVector (R, 1)).length = R := by simp [orderOf]
    simp only [dotZeros, dotSizes, productKind, col_zeros_from_dim_eq, if_true, hl] at hsz ⊢
    rw [col_exact R mem hsz, List.map_const', hl]; rfl

theorem dotZeros_refused [Target] [Zero α] {cfg : Cfg} (hc : cfg.overflowChecks = true) (i : DotImpl)
    {d : Nat × Nat} (mem : Mem α)
    (h : ¬ (HasShape (productKind (dotSizes i)) d ∧
      (orderOf (productKind (dotSizes i)) d).length * cfg.item.size ≤ isizeMax)) :
    dotZeros cfg i d.1 d.2 mem = .panic := by
  obtain ⟨R, C⟩ := d
  cases i with
  | matMat => exact zeros_too_big hc (k := .rowMajor) (d := (R, C)) rfl mem (fun h' => h ⟨trivial, h'⟩)
  | rowMat =>
    simp only [dotZeros, row_zeros_from_dim_eq]
    split
    · rename_i hR; obtain rfl : R = 1 := hR
      refine row_too_big C mem fun h' => h ⟨rfl, ?_⟩
      simpa [dotSizes, productKind, orderOf] using h'
    · rfl
  | matCol =>
    simp only [dotZeros, col_zeros_from_dim_eq]
    split
    · rename_i hR; obtain rfl : C = 1 := hR
      refine col_too_big R mem fun h' => h ⟨rfl, ?_⟩
      simpa [dotSizes, productKind, orderOf] using h'
    · rfl

/-- In a new store the elements of the other matrices are what they were. -/
theorem RepVal.value_append [Target] [Zero α] [Add α] [Mul α] {mem : Mem α} {a : Mat α} {x : AVal α}
    (h : RepVal mem a x) (xs : List α) {r c : Nat} (hs : Stored a.layout r c) :
    x.value (mem.bufs ++ [xs]) r c = x.value mem.bufs r c := by
  have h1 := h.value hs
  have h2 := (h.mono (size_append mem xs)).value hs
  rw [matValue_congr h.ok (fun b hb r c hs => ?_) hs, h1] at h2
  · exact (Option.some.inj h2).symm
  · exact Mem.alloc_get_old mem xs (cell_buf_lt hb hs)

theorem rep_load_append [Target] [Zero α] {mem : Mem α} {b : BaseMatrix} {m : AMat} (h : Rep mem b m)
    (xs : List α) {r c : Nat} (hs : Stored b.layout r c) :
    m.load (mem.bufs ++ [xs]) r c = m.load mem.bufs r c := by
  have h1 := h.elem hs
  have h2 := (h.mono (size_append mem xs)).elem hs
  have h3 : elem b ⟨mem.bufs ++ [xs]⟩ r c = elem b mem r c :=
    Mem.alloc_get_old mem xs (cell_buf_lt h.sound hs)
  rw [h3, h1] at h2
  exact (Option.some.inj h2).symm

theorem modify_last {A : Type} (xs : List A) (x : A) (f : A → A) :
    (xs ++ [x]).modify xs.length f = xs ++ [f x] := by
  induction xs with
  | nil => rfl
  | cons y ys ih => simp [ih]

/-- `eval` of an expression that fits in memory. -/
theorem eval_exact [Target] [Zero α] [Add α] [Mul α] {mem : Mem α} {a : Mat α} {x : AVal α}
    (h : RepVal mem a x) (cfg : Cfg) (hk : x.kind ≠ .columnVector)
    (hsz : (orderOf x.kind x.dim).length * cfg.item.size ≤ isizeMax) :
    a.eval cfg mem = .ok (⟨⟨mem.bufs.length, 0, (orderOf x.kind x.dim).length⟩,
      kindLayout x.kind x.dim, .dynamic, .dynamic⟩,
      ⟨mem.bufs ++ [(orderOf x.kind x.dim).map fun p => x.value mem.bufs p.1 p.2]⟩) := by
  have hil : a.layout.index_layout = kindLayout x.kind x.dim := by
    rw [index_layout_eq, h.kind, h.dim]
  have hfd : x.kind.from_dimension x.dim = .ok (kindLayout x.kind x.dim) := by
    rw [← h.kind, ← h.dim, from_dimension_kind (fun e => absurd (h.kind ▸ e) hk), hil, h.kind, h.dim]
  have hord : order a.layout = orderOf x.kind x.dim := by rw [← h.positions]; rfl
  have hn : count a.layout = (orderOf x.kind x.dim).length := by rw [← order_length, hord]
  have hshape : HasShape x.kind x.dim := by
    by_contra hb
    rw [from_dimension_no_shape hb hk] at hfd
    simp at hfd
  unfold Mat.eval
  simp only [h.kind, h.dim]
  rw [zeros_exact hfd mem hsz]
  simp only [Out.bind_ok, h.ok.number_of_elements cfg]
  have hR : ∀ ys : List α, ys.length = (orderOf x.kind x.dim).length →
      Rep ⟨mem.bufs ++ [ys]⟩ ⟨⟨mem.bufs.length, 0, (orderOf x.kind x.dim).length⟩,
        kindLayout x.kind x.dim, .dynamic, .dynamic⟩
        (AMat.root mem.bufs.length (orderOf x.kind x.dim).length x.kind (.dynamic, .dynamic) x.dim) := by
    intro ys hy
    have := rep_root (mem := mem) x.kind x.dim hshape .dynamic .dynamic ys
      (by rw [hy]; exact four_mul_le hsz) hy
    rwa [hy] at this
  set ps := orderOf x.kind x.dim with hps
  set f : Nat × Nat → α := fun p => x.value mem.bufs p.1 p.2 with hf
  have key := forRange_inv (n := ps.length)
    (s := (⟨mem.bufs ++ [ps.map fun _ => 0]⟩ : Mem α))
    (body := fun index mem1 => do
      let v ← a.get1d_unchecked cfg mem1 index
      let p ← (⟨⟨mem.bufs.length, 0, ps.length⟩, kindLayout x.kind x.dim, .dynamic, .dynamic⟩ :
        BaseMatrix).get1d_unchecked_mut cfg index
      mem1.write p v)
    (fun i y => y = ⟨mem.bufs ++ [(ps.take i).map f ++ (ps.drop i).map fun _ => 0]⟩) (by simp) ?_
  · obtain ⟨y, e, hy⟩ := key
    rw [hn, e, hy]
    simp
  · rintro i y hi rfl
    have hlen : ((ps.take i).map f ++ (ps.drop i).map fun _ => (0 : α)).length = ps.length := by
      simp; omega
    obtain ⟨r, c, hs, hidx⟩ := exists_index (show i < count a.layout by rw [hn]; exact hi)
    replace hidx := hidx.symm
    have hpi : ps[i]? = some (r, c) := by rw [← hord, hidx]; exact order_index hs
    have hs' : Stored (kindLayout x.kind x.dim) r c := by
      rw [← hil]; exact (index_layout_stored _ _ _).2 hs
    have hidx' : i = index (kindLayout x.kind x.dim) r c := by
      rw [← hil, index_layout_index]; exact hidx
    have hRi := hR _ hlen
    obtain ⟨v, v1, -, v2⟩ := MatOK.unchecked (h.mono (size_append mem
      ((ps.take i).map f ++ (ps.drop i).map fun _ => (0 : α)))).ok cfg hs
    have hv : v = f (r, c) := by
      have := (h.mono (size_append mem ((ps.take i).map f ++ (ps.drop i).map fun _ => (0 : α)))).value hs
      rw [v1] at this
      simp only at this
      rw [Option.some.inj this, RepVal.value_append h _ hs]
    refine ⟨_, ?_, rfl⟩
    have hw := (hRi.write hs' v).1
    have hp := hRi.sound.get1d_unchecked_mut cfg hs'
    simp only at hp
    rw [← hidx'] at hp
    rw [← hidx] at v2
    simp only [hp, v2, Out.bind_ok]
    rw [hw]
    have hpl : (AMat.root mem.bufs.length ps.length x.kind (.dynamic, .dynamic) x.dim).place r c = i := by
      have := idxOf_order hs'
      rw [kindLayout_order, ← hidx'] at this
      exact this
    simp only [AMat.save, hpl, Spec.save]
    congr 1
    simp only [Mem.mk.injEq]
    rw [show (AMat.root mem.bufs.length ps.length x.kind (SizeId.dynamic, SizeId.dynamic) x.dim).store =
      mem.bufs.length from rfl, modify_last]
    simp only [List.append_cancel_left_eq, List.cons.injEq, and_true]
    rw [List.set_append_right _ _ (by simp), List.take_add_one, hpi]
    have : ps.drop i = (r, c) :: ps.drop (i + 1) := by
      rw [List.drop_eq_getElem_cons hi]
      rw [List.getElem?_eq_getElem hi] at hpi
      rw [Option.some.inj hpi]
    rw [this]
    have hmin : min i ps.length = i := by omega
    simp [hv, hmin]

theorem eval_too_big [Target] [Zero α] [Add α] [Mul α] {mem : Mem α} {a : Mat α} {x : AVal α}
    (h : RepVal mem a x) {cfg : Cfg} (hc : cfg.overflowChecks = true) (hk : x.kind ≠ .columnVector)
    (hsz : ¬ (orderOf x.kind x.dim).length * cfg.item.size ≤ isizeMax) :
    a.eval cfg mem = .panic := by
  have hfd : x.kind.from_dimension x.dim = .ok (kindLayout x.kind x.dim) := by
    rw [← h.kind, ← h.dim, from_dimension_kind (fun e => absurd (h.kind ▸ e) hk), index_layout_eq]
  unfold Mat.eval
  simp only [h.kind, h.dim]
  rw [zeros_too_big hc hfd mem hsz]
  rfl

theorem RepVal.hasShape [Target] {mem : Mem α} {a : Mat α} {x : AVal α} (h : RepVal mem a x) :
    HasShape x.kind x.dim := by
  rw [← h.kind, ← h.dim]
  cases a.layout <;> simp [HasShape, Layout.indexKind, Layout.dim]

/-! ## The simulation -/

theorem hasBlock_iff [Target] {mem : Mem α} {b : BaseMatrix} {m : AMat} (h : Rep mem b m) :
    hasBlock b = true ↔ IsMajor b.layout ∧ m.sizes = (.dynamic, .dynamic) := by
  rw [← h.sizes]
  unfold hasBlock IsMajor
  cases b.layout <;> simp

theorem major_kind [Target] {mem : Mem α} {b : BaseMatrix} {m : AMat} (h : Rep mem b m) :
    IsMajor b.layout ↔ (m.kind = .rowMajor ∨ m.kind = .columnMajor) := by
  rw [← h.kind]
  unfold IsMajor
  cases b.layout <;> simp [Layout.indexKind]

theorem hasSplit_iff [Target] {mem : Mem α} {b : BaseMatrix} {m : AMat} (h : Rep mem b m) :
    hasSplit b = true ↔ b.layout = .rowMajor ⟨m.dim⟩ ∧ m.sizes = (.dynamic, .dynamic) := by
  rw [← h.sizes, ← h.dim]
  unfold hasSplit
  cases b.layout <;> simp [Layout.dim]

theorem plain_rowMajor [Target] {mem : Mem α} {b : BaseMatrix} {m : AMat} (h : Rep mem b m) :
    b.layout = .rowMajor ⟨m.dim⟩ ↔ m.kind = .rowMajor ∧ m.plain := by
  rw [← h.kind, ← h.plain, ← h.dim]
  cases b.layout <;> simp [Layout.indexKind, isBaseLayout, Layout.dim]

theorem root_tight (store len : Nat) (k : BaseKind) (sz : SizeId × SizeId) {d : Nat × Nat}
    (hd : HasShape k d) : (AMat.root store len k sz d).Tight := by
  have key : ∀ r c, Stored (kindLayout k d) r c → (orderOf k d).idxOf (r, c) = index (kindLayout k d) r c := by
    intro r c hs
    have := idxOf_order hs
    rwa [kindLayout_order] at this
  cases k with
  | rowMajor =>
    intro r c hr hc
    have h0 := key 0 0 ⟨by simp only [kindLayout, Layout.dim]; exact Nat.lt_of_le_of_lt (Nat.zero_le _) hr,
      by simp only [kindLayout, Layout.dim]; exact Nat.lt_of_le_of_lt (Nat.zero_le _) hc, fun u hu => by simp [kindLayout] at hu⟩
    have h1 := key r c ⟨hr, hc, fun u hu => by simp [kindLayout] at hu⟩
    simp only [AMat.root, h0, h1, kindLayout, index]
    simp
  | columnMajor =>
    intro r c hr hc
    have h0 := key 0 0 ⟨by simp only [kindLayout, Layout.dim]; exact Nat.lt_of_le_of_lt (Nat.zero_le _) hr,
      by simp only [kindLayout, Layout.dim]; exact Nat.lt_of_le_of_lt (Nat.zero_le _) hc, fun u hu => by simp [kindLayout] at hu⟩
    have h1 := key r c ⟨hr, hc, fun u hu => by simp [kindLayout] at hu⟩
    simp only [AMat.root, h0, h1, kindLayout, index]
    simp
  | _ => trivial

/-- Every operation of a program has the effect the machine gives it. -/
theorem op_follows [Target] [Zero α] [One α] [Add α] [Mul α] {cfg : Cfg} (hc : cfg.overflowChecks = true)
    (kern : Kern α) {s : St α} {t : ASt α} (h : Simulates s t) (op : Op α) (ha : op.Allowed t) :
    Follows (op.exec cfg kern s) s (op.meaning cfg.item.size kern t) := by
  cases op with
  | zeros k rows cols =>
    simp only [Op.exec, Op.meaning, Out.pure_eq]
    have hk : k ≠ .columnVector := ha
    split
    · rename_i hd
      have hf := from_dimension_shape hd hk
      exact .fresh h cfg hd (fun hsz => zeros_exact hf s.mem hsz) (fun hsz => zeros_too_big hc hf s.mem hsz)
    · rename_i hd
      rw [show zeros_from_dim cfg k rows cols s.mem = .panic by
        simp [zeros_from_dim, from_dimension_no_shape hd hk]]
      exact .panic h
  | rowZeros n => exact row_follows h cfg n
  | rowZerosDim rows cols =>
    simp only [Op.exec, Op.meaning, Out.pure_eq, row_zeros_from_dim_eq]
    split
    · exact row_follows h cfg cols
    · exact .panic h
  | colZeros n => exact col_follows h cfg n
  | colZerosDim rows cols =>
    simp only [Op.exec, Op.meaning, Out.pure_eq, col_zeros_from_dim_eq]
    split
    · exact col_follows h cfg rows
    · exact .panic h
  | fixedZeros rs cs k =>
    simp only [Op.exec, Op.meaning, Out.pure_eq]
    split
    · rename_i hm; exact fixed_follows h cfg hm
    · exact .panic h
  | fixedVector rs cs k n =>
    simp only [Op.exec, Op.meaning, Out.pure_eq]
    split
    · rename_i hm; exact fixedVector_follows h cfg hm
    · exact .panic h
  | fromSlice rs cs xs l =>
    refine fromData_follows h cfg hc rs cs xs l fun hn r c hs => ?_
    have := ha (by rw [ofLayout_positions]; exact hn) (r, c)
      (by rw [ofLayout_positions]; exact mem_order.2 hs)
    rwa [ofLayout_place _ _ _ l hs] at this
  | fromVector rs cs n l =>
    have := fromData_follows h cfg hc rs cs (List.replicate n 0) l fun hn r c hs => by
      rw [List.length_replicate] at hn ⊢
      have := ha (by rw [ofLayout_positions]; exact hn) (r, c)
        (by rw [ofLayout_positions]; exact mem_order.2 hs)
      rwa [ofLayout_place _ _ _ l hs] at this
    simp only [List.length_replicate] at this
    exact this
  | element k op =>
    simp only [Op.exec, Op.meaning, Out.pure_eq]
    refine .withBase h k fun b m _ _ hr => ?_
    rcases Rep.element hr cfg op with ⟨e1, e2⟩ | ⟨r, c, e1, e2, e3⟩
    · rw [e1, e2]; exact .panic h
    · rw [e1, e2, Out.bind_ok]
      simp only [← h.mem]
      exact .write h _ e3
  | get k r c =>
    simp only [Op.exec, Op.meaning, Out.pure_eq]
    refine .withVal h k fun a x _ _ hr => ?_
    by_cases hs : Stored a.layout r c
    · rw [if_pos (by rw [hr.positions]; exact mem_order.2 hs), hr.get cfg hs, Out.bind_ok, h.mem]
      exact .inr ⟨s, rfl, h⟩
    · rw [if_neg (by rw [hr.positions]; exact fun hp => hs (mem_order.1 hp)), MatOK.get_panic hr.ok cfg hs]
      exact .panic h
  | get1d k i =>
    simp only [Op.exec, Op.meaning, Out.pure_eq]
    refine .withVal h k fun a x _ _ hr => ?_
    rw [hr.positions]
    by_cases hi : i < count a.layout
    · obtain ⟨r, c, hs, rfl⟩ := exists_index hi
      rw [order_index hs, hr.get1d cfg hs, Out.bind_ok, h.mem]
      exact .inr ⟨s, rfl, h⟩
    · rw [List.getElem?_eq_none (by rw [order_length]; omega), MatOK.get1d_panic hr.ok cfg hi]
      exact .panic h
  | forEach k f =>
    simp only [Op.exec, Op.meaning, Out.pure_eq]
    refine .withBase h k fun b m _ _ hr => ?_
    obtain ⟨y, e, e1, e2⟩ := hr.for_each cfg (fun (σ : List α) v => (σ ++ [v], f σ v)) []
    rw [e1, Out.bind_ok, ← h.mem]
    simp only at e
    rw [← e]
    exact .write h _ e2
  | fillRand k draw =>
    simp only [Op.exec, Op.meaning, Out.pure_eq]
    refine .withBase h k fun b m _ _ hr => ?_
    obtain ⟨y, e, e1, e2⟩ := hr.for_each cfg (fun (k : Nat) _ => (k + 1, draw k)) 0
    simp only [BaseMatrix.fill_from_rand]
    rw [e1, Out.bind_ok, ← h.mem]
    have := foldl_counter (fun x (p : Nat × Nat) k => m.save x p.1 p.2 (draw k)) m.positions 0 s.mem.bufs
    simp only at e
    rw [← e] at this
    rw [← this]
    exact .write h _ e2
  | readSlice k first last =>
    simp only [Op.exec, Op.meaning, Out.pure_eq]
    refine .withBase h k fun b m _ _ hr => ?_
    simp only [BaseMatrix.get_slice]
    split
    · rename_i hl
      rw [← hr.len] at hl
      rw [Container.get_slice_eq _ hl.1 hl.2, Out.bind_ok]
      have hwin := hr.sound.container.window
      obtain ⟨xs, e, e1, e2⟩ := Container.toList_ok (mem := s.mem)
        (d := ⟨b.data.buf, b.data.off + first, last - first⟩) (by simp only; omega)
      rw [e, Out.bind_ok]
      refine .inr ⟨s, ?_, h⟩
      congr 3
      apply List.ext_getElem?
      intro i
      by_cases hi : i < last - first
      · rw [e2 i hi]
        simp only [List.getElem?_map, List.getElem?_range hi, Option.map_some]
        rw [get?_load (by simp only; omega), ← h.mem, ← hr.store, ← hr.lo]
      · rw [List.getElem?_eq_none (by rw [e1]; simpa using hi), List.getElem?_eq_none (by simpa using hi)]
    · rename_i hl
      rw [← hr.len] at hl
      rw [Container.get_slice_panic _ hl]
      exact .panic h
  | writeSlice k first last xs =>
    simp only [Op.exec, Op.meaning, Out.pure_eq]
    refine .withBase h k fun b m _ _ hr => ?_
    simp only [BaseMatrix.get_slice_mut]
    have hwin := hr.sound.container.window
    split
    · rename_i hl
      rw [← hr.len] at hl
      rw [Container.get_slice_mut_eq _ hl.1 hl.2.1, Out.bind_ok]
      obtain ⟨e1, e2⟩ := writeList_fold (mem := s.mem) (xs := xs)
        (d := ⟨b.data.buf, b.data.off + first, last - first⟩) (by simp only; omega) hl.2.2
      rw [e1, Out.bind_ok, ← h.mem, ← hr.store, ← hr.lo]
      exact .write h _ e2
    · rename_i hl
      rw [← hr.len] at hl
      by_cases hl' : first < last ∧ last ≤ b.data.len
      · rw [Container.get_slice_mut_eq _ hl'.1 hl'.2, Out.bind_ok]
        rw [show Container.writeList ⟨b.data.buf, b.data.off + first, last - first⟩ s.mem xs = .panic by
          unfold Container.writeList; rw [if_neg (fun hx => hl ⟨hl'.1, hl'.2, hx⟩)]]
        exact .panic h
      · rw [Container.get_slice_mut_panic _ hl']
        exact .panic h
  | block k tl d =>
    simp only [Op.exec, Op.meaning, Out.pure_eq]
    refine .withBase h k fun b m _ hm hr => ?_
    obtain ⟨h1, h2, h3⟩ := ha
    by_cases hb : hasBlock b = true
    · rw [if_pos hb]
      obtain ⟨hM, hsz⟩ := (hasBlock_iff hr).1 hb
      by_cases hf : Fits b.layout tl d
      · rw [if_pos ⟨(major_kind hr).1 hM, hsz, by rw [← hr.dim]; exact hf.1, by rw [← hr.dim]; exact hf.2⟩]
        obtain ⟨v, e, hv⟩ := hr.block (h3 m hm) hM cfg hf h1 h2
        rw [e, Out.bind_ok]
        exact .push h (.cons (hv hsz) .nil)
      · rw [if_neg (fun hx => hf ⟨by rw [hr.dim]; exact hx.2.2.1, by rw [hr.dim]; exact hx.2.2.2⟩),
          block_panic_of_not_fits cfg b (.inl hc) hf]
        exact .panic h
    · rw [if_neg hb, if_neg (fun hx => hb ((hasBlock_iff hr).2 ⟨(major_kind hr).2 hx.1, hx.2.1⟩))]
      exact .panic h
  | split k p =>
    simp only [Op.exec, Op.meaning, Out.pure_eq]
    refine .withBase h k fun b m _ hm hr => ?_
    by_cases hb : hasSplit b = true
    · rw [if_pos hb]
      obtain ⟨hl, hsz⟩ := (hasSplit_iff hr).1 hb
      by_cases hp : 0 < p.1 ∧ p.1 < m.dim.1 ∧ 0 < p.2 ∧ p.2 < m.dim.2
      · rw [if_pos ⟨((plain_rowMajor hr).1 hl).1, ((plain_rowMajor hr).1 hl).2, hsz, hp⟩]
        obtain ⟨q, e, hq⟩ := split_blocks cfg hr.sound hl hp.1 hp.2.1 hp.2.2.1 hp.2.2.2
        rw [e, Out.bind_ok]
        have hM : IsMajor b.layout := by rw [hl]; trivial
        have ht : m.Tight := by
          have hk := ((plain_rowMajor hr).1 hl).1
          unfold AMat.Tight
          rw [hk]
          intro r c h1 h2
          have st : ∀ r c, r < m.dim.1 → c < m.dim.2 → Stored b.layout r c := by
            intro r c h1 h2
            rw [hl]; exact ⟨h1, h2, fun u hu => by simp at hu⟩
          rw [hr.place r c (st r c h1 h2), hr.place 0 0 (st 0 0 (by omega) (by omega)), hl]
          simp [raw]; omega
        refine .push h (forall₂_map _ fun i => ?_)
        obtain ⟨q1, q2, q3, q4⟩ := hq i
        obtain ⟨v, e', hv⟩ := hr.block ht hM cfg q2 q3 q4
        rw [q1] at e'
        rw [Out.ok.inj e']
        exact hv hsz
      · rw [if_neg (fun hx => hp hx.2.2.2), split_panic hr.sound cfg hc hl hp]
        exact .panic h
    · rw [if_neg hb, if_neg (fun hx => hb ((hasSplit_iff hr).2
        ⟨(plain_rowMajor hr).2 ⟨hx.1, hx.2.1⟩, hx.2.2.1⟩))]
      exact .panic h
  | ref k =>
    simp only [Op.exec, Op.meaning, Out.pure_eq]
    refine .withVal h k fun a x _ _ hr => ?_
    exact .push h (.cons hr .nil)
  | add refLeft refRight h1 h2 =>
    simp only [Op.exec, Op.meaning, Out.pure_eq]
    rcases h.val h1 with ⟨e1, e2⟩ | ⟨a, x, e1, e2, hx⟩
    · rw [e1, e2]; exact .panic h
    rcases h.val h2 with ⟨f1, f2⟩ | ⟨b, y, f1, f2, hy⟩
    · rw [e1, e2, f1, f2]; exact .panic h
    rw [e1, e2, f1, f2]
    simp only [withSome]
    rw [hx.kind, hy.kind, hx.sizes, hy.sizes]
    by_cases hks : x.kind = y.kind ∧ x.sizes = y.sizes
    · rw [if_pos hks]
      by_cases hd : x.dim = y.dim
      · rw [if_pos ⟨hks.1, hks.2, hd⟩]
        have hd' : a.layout.dim = b.layout.dim := by rw [hx.dim, hy.dim, hd]
        have hk' : a.layout.indexKind = b.layout.indexKind := by rw [hx.kind, hy.kind, hks.1]
        cases refLeft <;> cases refRight <;>
          (simp only [Mat.add_vv, Mat.add_vr, Mat.add_rv, Mat.add_rr, Mat.addition_new, Mat.from_ref,
              Mat.layout]
           rw [Out.assert_pos (by exact hd')]
           exact .push h (.cons ⟨hx, hy, hd', hk', rfl⟩ .nil))
      · rw [if_neg (fun hx => hd hx.2.2)]
        have hd' : ¬ a.layout.dim = b.layout.dim := by rw [hx.dim, hy.dim]; exact hd
        cases refLeft <;> cases refRight <;>
          (simp only [Mat.add_vv, Mat.add_vr, Mat.add_rv, Mat.add_rr, Mat.addition_new, Mat.from_ref,
              Mat.layout]
           rw [Out.assert_neg (by exact hd')]
           exact .panic h)
    · rw [if_neg hks, if_neg (fun hx => hks ⟨hx.1, hx.2.1⟩)]
      exact .panic h
  | scale scalarFirst byRef x k =>
    simp only [Op.exec, Op.meaning, Out.pure_eq]
    refine .withVal h k fun a y _ _ hr => ?_
    cases scalarFirst <;> cases byRef <;> exact .push h (.cons ⟨hr, rfl⟩ .nil)
  | eval k =>
    simp only [Op.exec, Op.meaning, Out.pure_eq]
    refine .withVal h k fun a x _ hx hr => ?_
    rw [hr.sizes]
    split
    · have hk := ha x hx
      rw [← h.mem]
      have := Follows.fresh h cfg (RepVal.hasShape hr) (o := a.eval cfg s.mem)
        (fun hsz => eval_exact hr cfg hk hsz) (fun hsz => eval_too_big hr hc hk hsz)
      exact this
    · exact .panic h
  | matmul alpha a b beta c =>
    simp only [Op.exec, Op.meaning, Out.pure_eq]
    rcases h.base a with ⟨e1, e2⟩ | ⟨a, ma, e1, e2, hA⟩
    · rw [e1, e2]; exact .panic h
    rcases h.base b with ⟨f1, f2⟩ | ⟨b, mb, f1, f2, hB⟩
    · rw [e1, e2, f1, f2]; exact .panic h
    rcases h.base c with ⟨g1, g2⟩ | ⟨c, mc, g1, g2, hC⟩
    · rw [e1, e2, f1, f2, g1, g2]; exact .panic h
    obtain ⟨t1, t2, t3, t4, t5, t6⟩ := ha ma mb mc e2 f2 g2
    rw [e1, e2, f1, f2, g1, g2]
    simp only [withSome]
    have hi : matmulImpl a b c = true ↔ (NotTriangular a.layout ∧ NotTriangular b.layout ∧
        NotTriangular c.layout) ∧ productSizes ma.sizes mb.sizes = some mc.sizes := by
      rw [matmulImpl_iff, ← hA.sizes, ← hB.sizes, ← hC.sizes]
    by_cases hz : (NotTriangular a.layout ∧ NotTriangular b.layout ∧ NotTriangular c.layout) ∧
        productSizes ma.sizes mb.sizes = some mc.sizes
    · rw [if_pos (hi.2 hz)]
      replace hz := hz.2
      by_cases hcond : Compatible a.layout b.layout c.layout ∧ NotTriangular a.layout ∧
          NotTriangular b.layout ∧ NotTriangular c.layout
      · rw [if_pos ⟨hz, by rw [← hA.dim, ← hB.dim]; exact hcond.1.1, by
            rw [← hA.dim, ← hB.dim, ← hC.dim]; exact Prod.ext hcond.1.2.1 hcond.1.2.2,
          (kind_notTri hA).2 hcond.2.1, (kind_notTri hB).2 hcond.2.2.1, (kind_notTri hC).2 hcond.2.2.2⟩]
        obtain ⟨mem', m1, m2, m3, -⟩ := rep_matmul hA hB hC t1 t2 t3 t4 t5 t6 hcond.2.1 hcond.2.2.1
          hcond.2.2.2 hcond.1 kern alpha beta
        rw [m1, Out.bind_ok, ← h.mem, m2]
        exact .write h _ m3
      · rw [matmul_refused kern alpha beta s.mem hcond, if_neg]
        · exact .panic h
        · rintro ⟨-, c1, c2, c3, c4, c5⟩
          refine hcond ⟨⟨by rw [hA.dim, hB.dim]; exact c1, by rw [hA.dim, hC.dim, c2], by
            rw [hB.dim, hC.dim, c2]⟩, (kind_notTri hA).1 c3, (kind_notTri hB).1 c4, (kind_notTri hC).1 c5⟩
    · rw [if_neg (fun hx => hz (hi.1 hx)), if_neg]
      · exact .panic h
      · rintro ⟨c0, -, -, c3, c4, c5⟩
        exact hz ⟨⟨(kind_notTri hA).1 c3, (kind_notTri hB).1 c4, (kind_notTri hC).1 c5⟩, c0⟩
  | dot a b =>
    simp only [Op.exec, Op.meaning, Out.pure_eq]
    rcases h.base a with ⟨e1, e2⟩ | ⟨a, ma, e1, e2, hA⟩
    · rw [e1, e2]; exact .panic h
    rcases h.base b with ⟨f1, f2⟩ | ⟨b, mb, f1, f2, hB⟩
    · rw [e1, e2, f1, f2]; exact .panic h
    obtain ⟨t1, t2⟩ := ha ma mb e2 f2
    rw [e1, e2, f1, f2]
    simp only [withSome]
    rw [← hA.sizes, ← hB.sizes]
    by_cases ht : NotTriangular a.layout ∧ NotTriangular b.layout
    swap
    · rw [dotImpl_tri ht]
      have hn : ¬ (ma.kind ≠ .upperTriangular ∧ mb.kind ≠ .upperTriangular) := fun hx =>
        ht ⟨(kind_notTri hA).1 hx.1, (kind_notTri hB).1 hx.2⟩
      cases productSizes (a.rs, a.cs) (b.rs, b.cs) with
      | none => exact .panic h
      | some z =>
        simp only
        rw [if_neg fun hx => hn hx.2.2]
        exact .panic h
    rw [dotImpl_eq ht.1 ht.2]
    cases hdi : dotImpl a b with
    | none => exact .panic h
    | some i =>
      simp only [Option.map_some]
      rw [dot_eq, hA.dim, hB.dim]
      by_cases hcond : ma.dim.2 = mb.dim.1 ∧ HasShape (productKind (dotSizes i)) (ma.dim.1, mb.dim.2) ∧
            ma.kind ≠ .upperTriangular ∧ mb.kind ≠ .upperTriangular
      · rw [if_pos hcond]
        obtain ⟨c1, c2, c3, c4⟩ := hcond
        have nA := (kind_notTri hA).1 c3
        have nB := (kind_notTri hB).1 c4
        refine .fresh h cfg (rs := (dotSizes i).1) (cs := (dotSizes i).2) c2 (fun hsz => ?_) (fun hsz => ?_)
        · rw [show dotZeros cfg i ma.dim.1 mb.dim.2 s.mem = _ from
            dotZeros_exact (d := (ma.dim.1, mb.dim.2)) i c2 s.mem hsz, Out.bind_ok]
          set ps := orderOf (productKind (dotSizes i)) (ma.dim.1, mb.dim.2) with hps
          have hRoot := rep_root (mem := s.mem) (productKind (dotSizes i)) (ma.dim.1, mb.dim.2) c2
            (dotSizes i).1 (dotSizes i).2 (ps.map fun _ => (0 : α))
            (by rw [List.length_map]; exact four_mul_le hsz) (by rw [List.length_map])
          rw [List.length_map] at hRoot
          have hpos : (AMat.root s.mem.bufs.length ps.length (productKind (dotSizes i)) (dotSizes i)
              (ma.dim.1, mb.dim.2)).positions = ps := rfl
          have hnew : ∀ {b : BaseMatrix} {m : AMat}, Rep s.mem b m →
              (AMat.root s.mem.bufs.length ps.length (productKind (dotSizes i)) (dotSizes i)
                (ma.dim.1, mb.dim.2)).Apart m := by
            intro b m hr hst p hp p' hp'
            exfalso
            have h1 := hr.lt (hr.stored.1 hp')
            have h2 : m.store = s.mem.bufs.length := hst.symm
            rw [h2, Mem.size_eq_zero (Nat.le_refl _)] at h1
            omega
          have hnd : ps.Nodup := by
            rw [hps, ← kindLayout_order]; exact order_nodup _
          obtain ⟨mem', m1, -, m3, m4, m5, m6⟩ := rep_matmul (hA.mono (size_append _ _))
            (hB.mono (size_append _ _)) hRoot t1 t2 (root_tight _ _ _ _ c2)
            (fun p hp p' hp' he => (List.idxOf_inj hp).1 he)
            (hnew hA) (hnew hB) nA nB
            (by rw [← productLayout_kindLayout]; exact (productLayout_props _ _ _).2.1)
            ⟨by rw [hA.dim, hB.dim]; exact c1, by rw [hA.dim, kindLayout_dim c2], by
              rw [hB.dim, kindLayout_dim c2]⟩ kern 1 0
          simp only
          rw [m1, Out.bind_ok]
          have : mem'.bufs = s.mem.bufs ++ [ps.map fun p => kern ⟨ma.dim.1, mb.dim.2, p.1, p.2⟩ 1 (pairs t.stores ma mb p.1 p.2) 0 0] := by
            refine mem_filled hnd ?_ ?_ (fun p hp => ?_) (fun q hq => ?_)
            · rw [m4]; simp
            · rw [m3]
              have := Mem.alloc_size_new s.mem (ps.map fun _ => (0 : α))
              simp only [Mem.alloc, List.length_map] at this
              exact this
            · have := m5 p (hpos ▸ hp)
              simp only [AMat.root] at this
              rw [← hps] at this
              rw [this]
              have hst := (hRoot.stored (r := p.1) (c := p.2)).1 (hpos ▸ hp)
              have hdim := kindLayout_dim c2
              have hr : p.1 < ma.dim.1 := by have := hst.1; rw [hdim] at this; exact this
              have hcol : p.2 < mb.dim.2 := by have := hst.2.1; rw [hdim] at this; exact this
              have hz : ∀ i, load (s.mem.bufs ++ [ps.map fun _ => (0 : α)]) s.mem.bufs.length i = 0 := by
                intro i
                simp only [load, List.getElem?_append_right (Nat.le_refl _), Nat.sub_self,
                  List.getElem?_cons_zero, Option.getD_some, List.getElem?_map]
                cases ps[i]? <;> rfl
              rw [AMat.load, hz]
              congr 2
              unfold pairs
              refine List.map_congr_left fun l hl => ?_
              rw [List.mem_range] at hl
              rw [rep_load_append hA _ ((stored_of_notTri nA).2 ⟨by rw [hA.dim]; exact hr, by rw [hA.dim]; exact hl⟩),
                rep_load_append hB _ ((stored_of_notTri nB).2 ⟨by rw [hB.dim, ← c1]; exact hl, by rw [hB.dim]; exact hcol⟩),
                h.mem]
            · rw [m6 q (fun p hp he => by rw [he] at hq; exact absurd hq (Nat.lt_irrefl _))]
              exact Mem.alloc_get_old s.mem _ hq
          rw [← this]
          rfl
        · rw [show dotZeros cfg i ma.dim.1 mb.dim.2 s.mem = .panic from
            dotZeros_refused hc (d := (ma.dim.1, mb.dim.2)) i s.mem (fun hx => hsz hx.2)]
          rfl
      · rw [if_neg hcond]
        suffices hp : (dotZeros cfg i ma.dim.1 mb.dim.2 s.mem >>= fun x =>
            matmul kern 1 a b 0 x.1 x.2 >>= fun mem2 => pure (x.1, mem2)) = .panic by
          rw [hp]; exact .panic h
        by_cases hd : HasShape (productKind (dotSizes i)) (ma.dim.1, mb.dim.2)
        · rcases dotZeros_cases cfg i ma.dim.1 mb.dim.2 s.mem with e | ⟨m, mem1, e, -⟩
          · rw [e]; rfl
          · rw [e, Out.bind_ok, matmul_refused kern 1 0 mem1]
            · rfl
            · rintro ⟨q1, q2, q3, -⟩
              refine hcond ⟨?_, hd, (kind_notTri hA).2 q2, (kind_notTri hB).2 q3⟩
              rw [← hA.dim, ← hB.dim]; exact q1.1
        · rw [show dotZeros cfg i ma.dim.1 mb.dim.2 s.mem = .panic from
            dotZeros_refused hc (d := (ma.dim.1, mb.dim.2)) i s.mem (fun hx => hd hx.1)]
          rfl

theorem run_follows [Target] [Zero α] [One α] [Add α] [Mul α] {cfg : Cfg} (hc : cfg.overflowChecks = true)
    (kern : Kern α) (ops : List (Op α)) {s : St α} {t : ASt α} (h : Simulates s t)
    (ha : AlongMachine cfg.item.size kern Op.Allowed t ops) :
    ∃ s', runProgram cfg kern s ops = some ((runMachine cfg.item.size kern t ops).1, s') ∧
      Simulates s' (runMachine cfg.item.size kern t ops).2 ∧
      ((∀ o ∈ (runMachine cfg.item.size kern t ops).1, o ≠ .panicked) →
        Along cfg kern (NoPanic cfg kern) s ops) := by
  induction ops generalizing s t with
  | nil => exact ⟨s, rfl, h, fun _ => trivial⟩
  | cons op ops ih =>
    obtain ⟨ha1, ha2⟩ := ha
    rcases op_follows hc kern h op ha1 with ⟨e, e1, h'⟩ | ⟨s1, e, h'⟩
    · obtain ⟨s', r1, r2, r3⟩ := ih h' ha2
      refine ⟨s', ?_, r2, fun hx => absurd e1 (hx _ (List.mem_cons_self ..))⟩
      simp only [runProgram, Op.step, e, Option.bind_eq_bind, Option.bind_some, r1, runMachine, e1]
      rfl
    · obtain ⟨s', r1, r2, r3⟩ := ih h' ha2
      refine ⟨s', ?_, r2, fun hx => ⟨?_, fun o s2 hs => ?_⟩⟩
      · simp only [runProgram, Op.step, e, Option.bind_eq_bind, Option.bind_some, r1, runMachine]
        rfl
      · rw [NoPanic, e]; nofun
      · rw [Op.step, e] at hs
        obtain ⟨rfl, rfl⟩ := Prod.mk.inj (Option.some.inj hs)
        exact r3 fun o ho => hx o (List.mem_cons_of_mem _ ho)

theorem Simulates.init [Target] : Simulates (St.init (α := α)) ASt.init := ⟨rfl, .nil⟩

/-- **C59** With overflow checks, every program of allowed operations observes what the machine
says, and leaves the memory in the state the machine says. -/
theorem C59_programs [Target] [Zero α] [One α] [Add α] [Mul α] (cfg : Cfg) (hc : cfg.overflowChecks = true)
    (kern : Kern α) (ops : List (Op α))
    (ha : AlongMachine cfg.item.size kern Op.Allowed ASt.init ops) :
    ∃ s, runProgram cfg kern St.init ops = some ((runMachine cfg.item.size kern ASt.init ops).1, s) ∧
      s.mem.bufs = (runMachine cfg.item.size kern ASt.init ops).2.stores ∧
      s.mats.length = (runMachine cfg.item.size kern ASt.init ops).2.vals.length := by
  obtain ⟨s, h1, h2, -⟩ := run_follows hc kern ops Simulates.init ha
  exact ⟨s, h1, h2.mem, h2.vals.length_eq⟩

/-- **C59** without overflow checks, for programs in which nothing panics. -/
theorem C59_release [Target] [Zero α] [One α] [Add α] [Mul α] (i : ItemTy)
    (kern : Kern α) (ops : List (Op α)) (ha : AlongMachine i.size kern Op.Allowed ASt.init ops)
    (hp : ∀ o ∈ (runMachine i.size kern ASt.init ops).1, o ≠ .panicked) :
    ∃ s, runProgram (unchecked i) kern St.init ops =
        some ((runMachine i.size kern ASt.init ops).1, s) ∧
      s.mem.bufs = (runMachine i.size kern ASt.init ops).2.stores := by
  obtain ⟨s, h1, h2, h3⟩ := run_follows (cfg := checked i) rfl kern ops Simulates.init ha
  exact ⟨s, by rw [C58_programs i kern ops _ (h3 hp)]; exact h1, h2.mem⟩

/-! ### An example -/

/-- Fill, change through a block, evaluate `3 * (a + &a)`, multiply, split. -/
def machineProgram : List (Op Int) :=
  [.zeros .rowMajor 2 3, .forEach 0 (fun xs _ => xs.length), .block 0 (0, 1) (2, 2),
    .element 1 (.update 1 0 (· + 10)), .add false true 0 0, .scale true false 3 2, .eval 3,
    .get1d 4 4, .zeros .rowMajor 3 1, .forEach 5 (fun _ _ => 1), .dot 4 5, .readSlice 6 0 2,
    .split 0 (1, 1), .get 10 0 1, .get 10 1 0]

theorem machineProgram_allowed :
    AlongMachine 8 exactKern Op.Allowed (ASt.init (α := Int)) machineProgram := by
  refine ⟨nofun, trivial, ⟨by decide, by decide, ?_⟩, trivial, trivial, trivial, ?_, trivial, nofun,
    trivial, ?_, trivial, trivial, trivial, trivial, trivial⟩
  · rintro m ⟨⟩; exact root_tight _ _ .rowMajor _ trivial
  · rintro a ⟨⟩; nofun
  · rintro ma mb ⟨⟩ ⟨⟩
    exact ⟨root_tight _ _ .rowMajor _ trivial, root_tight _ _ .rowMajor _ trivial⟩

/-- What the machine says about it. -/
example : (runMachine 8 exactKern (ASt.init (α := Int)) machineProgram).1 =
    [.done, .done, .done, .done, .done, .done, .done, .value 84, .done, .done, .done,
      .values [18, 132], .done, .value 5, .panicked] := by decide

/-- And what the library does. -/
example : ∃ s, runProgram dbg exactKern St.init machineProgram =
    some ([.done, .done, .done, .done, .done, .done, .done, .value 84, .done, .done, .done,
      .values [18, 132], .done, .value 5, .panicked], s) := by
  obtain ⟨s, h, -⟩ := C59_programs dbg rfl exactKern machineProgram machineProgram_allowed
  exact ⟨s, h⟩

/-- Without the condition on products: the first column of `[[0, 1], [2, 3]]` times `[[1]]`. -/
def gapProgram : List (Op Int) :=
  [.zeros .rowMajor 2 2, .forEach 0 (fun xs _ => xs.length), .block 0 (0, 0) (2, 1),
    .zeros .rowMajor 1 1, .forEach 2 (fun _ _ => 1), .dot 1 2, .readSlice 3 0 2]

example : ¬ AlongMachine 8 exactKern Op.Allowed (ASt.init (α := Int)) gapProgram ∧
    (runMachine 8 exactKern (ASt.init (α := Int)) gapProgram).1 =
      [.done, .done, .done, .done, .done, .done, .values [0, 2]] ∧
    (runProgram dbg exactKern St.init gapProgram).map (·.1) =
      some [.done, .done, .done, .done, .done, .done, .values [0, 1]] := by
  refine ⟨fun h => ?_, by decide, by decide⟩
  have h1 := (h.2.2.2.2.2.1 _ _ rfl rfl).1
  have h2 := h1 1 0 (by decide) (by decide)
  revert h2
  decide

end Householder.Props
