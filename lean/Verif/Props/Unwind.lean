import Verif.Spec.Unwind
import Verif.Props.Histories
import Verif.Lemmas.Relational

/-!
# C78: panics that are caught
-/

namespace Householder.Props

open Spec

variable {α : Type}

@[simp] theorem orUnwind_ok {β γ : Type} (b : β) (s : γ) (k : β → Out (Bool × γ)) :
    orUnwind (.ok b) s k = k b := rfl

@[simp] theorem orUnwind_panic {β γ : Type} (s : γ) (k : β → Out (Bool × γ)) :
    orUnwind .panic s k = .ok (true, s) := rfl

@[simp] theorem orUnwind_ub {β γ : Type} (s : γ) (k : β → Out (Bool × γ)) :
    orUnwind .ub s k = .ub := rfl

/-! ### Sweeps -/

theorem sweep_length {σ : Type} (f : σ → α → σ × α × Bool) (s : σ) (vs : List α) :
    (sweep f s vs).2.2.length = vs.length := by
  induction vs generalizing s with
  | nil => rfl
  | cons v vs ih =>
    simp only [sweep]
    split
    · rfl
    · simp [ih]

theorem sweep_snoc {σ : Type} (f : σ → α → σ × α × Bool) (s : σ) (vs : List α) (v : α) :
    sweep f s (vs ++ [v]) =
      if (sweep f s vs).1 then (true, (sweep f s vs).2.1, (sweep f s vs).2.2 ++ [v])
      else ((f (sweep f s vs).2.1 v).2.2, (f (sweep f s vs).2.1 v).1,
        (sweep f s vs).2.2 ++ [(f (sweep f s vs).2.1 v).2.1]) := by
  induction vs generalizing s with
  | nil =>
    simp only [sweep, List.nil_append, Bool.false_eq_true, if_false]
    split <;> simp_all
  | cons w vs ih =>
    simp only [List.cons_append, sweep]
    by_cases h : (f s w).2.2 = true
    · simp [h]
    · simp only [h, Bool.false_eq_true, if_false, ih]
      split <;> simp

/-- A callable that panics first at call `j`. -/
theorem sweep_first {σ : Type} (f : σ → α → σ × α × Bool) (st : Nat → σ) (vs : List α) (j : Nat)
    (hj : j < vs.length)
    (hn : ∀ k (h : k < vs.length), k < j → f (st k) vs[k] = (st (k + 1), (f (st k) vs[k]).2.1, false))
    (hp : (f (st j) vs[j]).2.2 = true) :
    sweep f (st 0) vs = (true, (f (st j) vs[j]).1,
      (vs.take j).mapIdx (fun k v => (f (st k) v).2.1) ++ (f (st j) vs[j]).2.1 :: vs.drop (j + 1)) := by
  induction vs generalizing st j with
  | nil => simp at hj
  | cons v vs ih =>
    cases j with
    | zero =>
      simp only [List.getElem_cons_zero] at hp
      simp [sweep, hp]
    | succ j =>
      have h0 := hn 0 (by simp) (by omega)
      simp only [List.getElem_cons_zero] at h0
      have h1 : (f (st 0) v).2.2 = false := by rw [h0]
      have h2 : (f (st 0) v).1 = st 1 := by rw [h0]
      simp only [sweep, h1, Bool.false_eq_true, if_false, h2]
      have := ih (fun k => st (k + 1)) j (by simpa using hj)
        (fun k hk hkj => hn (k + 1) (by simpa using hk) (by omega))
        (by simpa using hp)
      simp only [Nat.zero_add] at this
      rw [this]
      simp [List.mapIdx_cons]

/-! ### `for_each` -/

/-- The same without unwinding: after the panic the callable leaves everything as it is. -/
def quiet {σ : Type} (f : σ → α → σ × α × Bool) (p : Bool × σ) (v : α) : (Bool × σ) × α :=
  if p.1 then (p, v) else (((f p.2 v).2.2, (f p.2 v).1), (f p.2 v).2.1)

theorem for_each_unwind_quiet [Target] {σ : Type} {m : BaseMatrix} {mem : Mem α} (h : Sound m mem) (cfg : Cfg)
    (f : σ → α → σ × α × Bool) (s : σ) :
    OutRel (fun x y => x = (y.1.1, y.1.2, y.2)) (m.for_each_unwind cfg f s mem)
      (m.for_each cfg (quiet f) (false, s) mem) := by
  unfold BaseMatrix.for_each_unwind BaseMatrix.for_each loopUnwind
  rw [h.number_of_elements cfg]
  simp only [orUnwind, Out.bind_ok]
  refine (OutRel.forRange (Q := fun (x : Bool × σ × Mem α) (y : (Bool × σ) × Mem α) =>
    x = (y.1.1, y.1.2, y.2) ∧ ∀ b, y.2.size b = mem.size b) ?_ (a := (false, s, mem))
    (b := ((false, s), mem)) ⟨rfl, fun _ => rfl⟩).mono
    fun _ _ h => h.1
  rintro i _ ⟨⟨p, s'⟩, mem'⟩ hi ⟨rfl, hs⟩
  obtain ⟨r, c, hst, rfl⟩ := exists_index hi
  have h' : Sound m mem' := h.mono (by rw [hs])
  have hp := h'.get1d_unchecked_mut cfg hst
  obtain ⟨v, hv, hv'⟩ := Mem.read_ok (h'.cell_lt hst)
  simp only [hp, Out.bind_ok, hv]
  cases p with
  | true =>
    obtain ⟨mem'', hw, hu⟩ := Mem.write_upd (v := v) (h'.cell_lt hst)
    have : mem'' = mem' := by
      refine Mem.ext_get hu.nbufs fun q => ?_
      rw [hu.get]
      split
      · subst_vars; exact hv'.symm
      · rfl
    simp only [quiet, if_true, hw, Out.bind_ok, this]
    exact .ok ⟨rfl, hs⟩
  | false =>
    simp only [quiet, Bool.false_eq_true, if_false]
    obtain ⟨mem'', hw, hu⟩ := Mem.write_upd (v := (f s' v).2.1) (h'.cell_lt hst)
    simp only [hw, Out.bind_ok]
    exact .ok ⟨rfl, fun b => by rw [hu.size, hs]⟩

theorem reads_iff [Target] {m : BaseMatrix} {mem : Mem α} (h : Sound m mem) (cfg : Cfg) (vs : List α) :
    Reads cfg m mem vs ↔ vs.length = count m.layout ∧
      ∀ k r c : Nat, (order m.layout)[k]? = some (r, c) → elem m mem r c = vs[k]? := by
  constructor
  · intro hr
    have hlen : ∀ k, k < count m.layout ↔ k < vs.length := by
      intro k
      have := hr k
      by_cases hk : k < count m.layout
      · obtain ⟨r, c, hs, rfl⟩ := exists_index hk
        obtain ⟨v, hv⟩ := h.elem_some hs
        rw [h.get1d cfg hs hv] at this
        by_contra hc
        rw [List.getElem?_eq_none (by omega)] at this
        simp at this
      · rw [h.get1d_panic cfg hk] at this
        by_contra hc
        rw [List.getElem?_eq_getElem (by omega)] at this
        simp at this
    refine ⟨?_, fun k r c hk => ?_⟩
    · have h1 := hlen vs.length
      have h2 := hlen (count m.layout)
      omega
    · obtain ⟨hs, rfl⟩ := order_get_iff.1 hk
      obtain ⟨v, hv⟩ := h.elem_some hs
      have := hr (index m.layout r c)
      rw [h.get1d cfg hs hv] at this
      rw [hv]
      cases e : vs[index m.layout r c]? with
      | none => rw [e] at this; simp at this
      | some w => rw [e] at this; simpa using this
  · rintro ⟨h1, h2⟩ k
    by_cases hk : k < count m.layout
    · obtain ⟨r, c, hs, rfl⟩ := exists_index hk
      obtain ⟨v, hv⟩ := h.elem_some hs
      rw [h.get1d cfg hs hv, ← h2 _ r c (order_index hs), hv]
    · rw [h.get1d_panic cfg hk, List.getElem?_eq_none (by omega)]

theorem reads_some [Target] {m : BaseMatrix} {mem : Mem α} (h : Sound m mem) (cfg : Cfg) :
    ∃ vs, Reads cfg m mem vs := by
  refine ⟨(order m.layout).filterMap fun p => elem m mem p.1 p.2, ?_⟩
  have : ∀ (l : List (Nat × Nat)), (∀ p ∈ l, Stored m.layout p.1 p.2) →
      (l.filterMap fun p => elem m mem p.1 p.2).length = l.length ∧ ∀ (k : Nat) (p : Nat × Nat), l[k]? = some p →
        elem m mem p.1 p.2 = (l.filterMap fun p => elem m mem p.1 p.2)[k]? := by
    intro l hl
    induction l with
    | nil => simp
    | cons p l ih =>
      obtain ⟨v, hv⟩ := h.elem_some (hl p (by simp))
      obtain ⟨i1, i2⟩ := ih fun q hq => hl q (by simp [hq])
      rw [List.filterMap_cons_some (f := fun p : Nat × Nat => elem m mem p.1 p.2) hv]
      refine ⟨by simp [i1], fun k q hk => ?_⟩
      cases k with
      | zero => obtain rfl : p = q := by simpa using hk
                simpa using hv
      | succ k => simpa using i2 k q (by simpa using hk)
  obtain ⟨h1, h2⟩ := this (order m.layout) (by
    rintro ⟨r, c⟩ hp
    obtain ⟨k, hk⟩ := List.getElem?_of_mem hp
    exact (order_get_iff.1 hk).1)
  exact (reads_iff h cfg _).2 ⟨by rw [h1, order_length], fun k r c hk => h2 k (r, c) hk⟩

theorem for_each_sweep [Target] {σ : Type} {m : BaseMatrix} {mem : Mem α} (h : Sound m mem)
    (hn : NonOverlapping m.layout) (cfg : Cfg) (f : σ → α → σ × α × Bool) (s : σ) {vs : List α}
    (hv : Reads cfg m mem vs) :
    ∃ mem', m.for_each_unwind cfg f s mem =
        .ok ((sweep f s vs).1, (sweep f s vs).2.1, mem') ∧
      Reads cfg m mem' (sweep f s vs).2.2 ∧ FrameOf m mem mem' := by
  obtain ⟨mem', st, e, h0, hk, hf⟩ := h.for_each hn cfg (quiet f) (false, s)
  have hq := for_each_unwind_quiet h cfg f s
  rw [e] at hq
  obtain ⟨hl, hvs⟩ := (reads_iff h cfg vs).1 hv
  have key : ∀ k, k ≤ count m.layout → (sweep f s (vs.take k)).1 = (st k).1 ∧
      (sweep f s (vs.take k)).2.1 = (st k).2 ∧ ∀ j r c, j < k →
        (order m.layout)[j]? = some (r, c) → elem m mem' r c = (sweep f s (vs.take k)).2.2[j]? := by
    intro k
    induction k with
    | zero => intro _; simp [sweep, h0]
    | succ k ih =>
      intro hk1
      obtain ⟨i1, i2, i3⟩ := ih (by omega)
      obtain ⟨r, c, hs, hi⟩ := exists_index (show k < count m.layout by omega)
      have ho : (order m.layout)[k]? = some (r, c) := hi ▸ order_index hs
      obtain ⟨v, v1, v2, v3⟩ := hk k r c ho
      have hvk : vs[k]? = some v := by rw [← hvs k r c ho, v1]
      have hlen : (sweep f s (vs.take k)).2.2.length = k := by
        rw [sweep_length, List.length_take]
        omega
      have htake : vs.take (k + 1) = vs.take k ++ [v] := by
        rw [List.take_add_one, hvk]
        rfl
      rw [htake, sweep_snoc, i1, i2]
      unfold quiet at v2 v3
      cases hp : (st k).1 with
      | true =>
        rw [hp] at v2 v3
        simp only [if_true] at v2 v3 ⊢
        refine ⟨by rw [← v2, hp], by rw [← v2], fun j r' c' hj ho' => ?_⟩
        by_cases hjk : j = k
        · subst hjk
          obtain ⟨rfl, rfl⟩ : r = r' ∧ c = c' := by simpa [ho] using ho'
          rw [v3, List.getElem?_append_right (by omega), hlen]
          simp
        · rw [List.getElem?_append_left (by omega)]
          exact i3 j r' c' (by omega) ho'
      | false =>
        rw [hp] at v2 v3
        simp only [Bool.false_eq_true, if_false] at v2 v3 ⊢
        refine ⟨by rw [← v2], by rw [← v2], fun j r' c' hj ho' => ?_⟩
        by_cases hjk : j = k
        · subst hjk
          obtain ⟨rfl, rfl⟩ : r = r' ∧ c = c' := by simpa [ho] using ho'
          rw [v3, List.getElem?_append_right (by omega), hlen]
          simp
        · rw [List.getElem?_append_left (by omega)]
          exact i3 j r' c' (by omega) ho'
  obtain ⟨k1, k2, k3⟩ := key _ (le_refl _)
  rw [List.take_of_length_le (by omega)] at k1 k2 k3
  refine ⟨mem', ?_, ?_, hf⟩
  · rw [k1, k2]
    generalize m.for_each_unwind cfg f s mem = x at hq ⊢
    cases hq with
    | ok hq => rw [hq]
  · refine (reads_iff (h.mono (by rw [hf.size])) cfg _).2 ⟨by rw [sweep_length, hl], fun k r c hk => ?_⟩
    exact k3 k r c (by have := (order_get_iff.1 hk); rw [← this.2]; exact index_lt this.1) hk

/-! ### `eval` -/

/-- The value of a built expression. -/
def arithValue (A : Arith α) (mem : Mem α) (r c : Nat) : Mat α → Option α
  | .base b => elem b mem r c
  | .ref m => arithValue A mem r c m
  | .addition a b _ => do
      let x ← arithValue A mem r c a
      let y ← arithValue A mem r c b
      A.add x y
  | .scalarMult m s => do
      let x ← arithValue A mem r c m
      A.mul s x

theorem build_arith (A : Arith α) {e : Ex α} {m : Mat α} (h : e.build = .ok m) (mem : Mem α)
    (r c : Nat) : arithValue A mem r c m = e.arithValue A mem r c := by
  induction e generalizing m with
  | leaf b => cases h; rfl
  | ref a ih =>
    simp only [Ex.build, Out.bind_eq_ok, Out.pure_eq] at h
    obtain ⟨x, hx, h⟩ := h
    cases h
    have := ih hx
    simpa only [Mat.from_ref, arithValue, Ex.arithValue] using this
  | add f g a b iha ihb =>
    simp only [Ex.build, Out.bind_eq_ok] at h
    obtain ⟨x, hx, y, hy, h⟩ := h
    have ha := iha hx
    have hb := ihb hy
    cases f <;> cases g <;>
      simp only [Mat.add_vv, Mat.add_vr, Mat.add_rv, Mat.add_rr, Mat.addition_new, Out.bind_eq_ok,
        Out.pure_eq] at h <;> obtain ⟨_, _, h⟩ := h <;> cases h <;>
      simp only [arithValue, Mat.from_ref, Ex.arithValue, ha, hb]
  | scale f g s a ih =>
    simp only [Ex.build, Out.bind_eq_ok] at h
    obtain ⟨x, hx, h⟩ := h
    have ha := ih hx
    cases f <;> cases g <;> cases h <;>
      simp only [Mat.mul_sv, Mat.mul_sr, Mat.mul_vs, Mat.mul_rs, Mat.scalar_mult_new, arithValue,
        Mat.from_ref, Ex.arithValue, ha]

theorem arith_unchecked [Target] (A : Arith α) {mem : Mem α} {m : Mat α} (h : MatOK mem m) (cfg : Cfg)
    {r c : Nat} (hs : Stored m.layout r c) :
    m.get1d_unchecked_arith A cfg mem (index m.layout r c) =
      Out.ofOption (arithValue A mem r c m) := by
  induction m with
  | base b =>
    obtain ⟨v, hv⟩ := Sound.elem_some h hs
    simp only [arithValue]
    rw [hv]
    exact Sound.get1d_unchecked h cfg hs hv
  | ref m ih => exact ih h hs
  | addition a b l iha ihb =>
    obtain ⟨ha, hb, hd, hk, rfl⟩ := h
    simp only [Mat.layout] at hs ⊢
    have hsa : Stored a.layout r c := by rwa [index_layout_stored] at hs
    have hsb := (stored_same hk hd r c).1 hsa
    have e1 : index a.layout.index_layout r c = index a.layout r c := index_layout_index ..
    have e2 : index a.layout r c = index b.layout r c := index_same hk hd r c
    simp only [Mat.get1d_unchecked_arith, arithValue, e1]
    rw [iha ha hsa, e2, ihb hb hsb]
    cases arithValue A mem r c a with
    | none => rfl
    | some x =>
      cases arithValue A mem r c b with
      | none => rfl
      | some y => rfl
  | scalarMult m s ih =>
    simp only [Mat.get1d_unchecked_arith, arithValue, Mat.layout] at hs ⊢
    rw [ih h hs]
    cases arithValue A mem r c m <;> rfl

theorem arith_congr [Target] (A : Arith α) {mem mem' : Mem α} {m : Mat α} (h : MatOK mem m)
    (hm : Extends mem mem') {r c : Nat} (hs : Stored m.layout r c) :
    arithValue A mem' r c m = arithValue A mem r c m := by
  induction m with
  | base b => exact hm.elem h hs
  | ref m ih => exact ih h hs
  | addition a b l iha ihb =>
    obtain ⟨ha, hb, hd, hk, rfl⟩ := h
    simp only [Mat.layout] at hs
    rw [index_layout_stored] at hs
    simp only [arithValue]
    rw [iha ha hs, ihb hb ((stored_same hk hd r c).1 hs)]
  | scalarMult m s ih =>
    simp only [arithValue]
    rw [ih h hs]

theorem MatOK.eval_unwind [Target] [Zero α] (A : Arith α) {mem : Mem α} {m : Mat α} (h : MatOK mem m)
    (cfg : Cfg) (hk : m.layout.indexKind = .columnVector → m.layout.dim.1 = 1)
    (hsz : count m.layout * cfg.item.size ≤ isizeMax) :
    ((∀ r c, Stored m.layout r c → ∃ v, arithValue A mem r c m = some v) →
      ∃ R mem', m.eval_unwind A cfg mem = .ok (some R, mem') ∧ R.layout = m.layout.index_layout ∧
        Sound R mem' ∧ Fresh R mem ∧ Extends mem mem' ∧
        ∀ r c, Stored R.layout r c → elem R mem' r c = arithValue A mem r c m) ∧
    (¬ (∀ r c, Stored m.layout r c → ∃ v, arithValue A mem r c m = some v) →
      ∃ mem', m.eval_unwind A cfg mem = .ok (none, mem') ∧ Extends mem mem' ∧
        ∀ b, mem.bufs.length ≤ b → mem'.size b = 0) := by
  obtain ⟨h1, h2⟩ := zeros_from_dim_ok cfg (k := m.layout.indexKind) (rows := m.layout.dim.1)
    (cols := m.layout.dim.2) (l := m.layout.index_layout) (from_dimension_kind hk)
    (index_layout_contiguous _) (by rw [index_layout_count]; exact hsz) mem
  generalize hR : (⟨⟨mem.bufs.length, 0, count m.layout.index_layout⟩, m.layout.index_layout,
    .dynamic, .dynamic⟩ : BaseMatrix) = R at h1 h2
  have hRl : R.layout = m.layout.index_layout := by rw [← hR]
  have hRb : R.data.buf = mem.bufs.length := by rw [← hR]
  generalize (mem.alloc _).2 = mem0 at h1 h2
  have hn : NonOverlapping R.layout := by
    rw [hRl]; exact contiguous_nonOverlapping (index_layout_contiguous _)
  unfold Mat.eval_unwind loopUnwind
  simp only [h1, h.number_of_elements cfg, orUnwind_ok]
  have := forRange_inv (n := count m.layout) (s := (false, mem0))
    (body := fun index st => if st.1 = true then .ok st else
      orUnwind (m.get1d_unchecked_arith A cfg st.2 index) st.2 fun v =>
        orUnwind (R.get1d_unchecked_mut cfg index) st.2 fun p => do
          let mem' ← st.2.write p v
          return (false, mem'))
    (fun i st => FrameOf R mem0 st.2 ∧
      (st.1 = true → ∃ r c, Stored m.layout r c ∧ arithValue A mem r c m = none) ∧
      (st.1 = false → ∀ r c, Stored R.layout r c → index R.layout r c < i →
        (∃ v, arithValue A mem r c m = some v) ∧ elem R st.2 r c = arithValue A mem r c m))
    ⟨FrameOf.refl _ _, by simp, fun _ r c _ hi => by omega⟩ ?_
  · obtain ⟨⟨p, mem'⟩, e, hfr, hv1, hv2⟩ := this
    have hext := hfr.extends h2.ext h2.fresh
    have hst : ∀ r c, Stored R.layout r c ↔ Stored m.layout r c := fun r c => by
      rw [hRl, index_layout_stored]
    have hlt : ∀ r c, Stored R.layout r c → index R.layout r c < count m.layout := by
      intro r c hs
      have := index_lt hs
      rwa [hRl, index_layout_count, ← hRl] at this
    rw [e]
    simp only [Out.bind_ok]
    cases p with
    | true =>
      obtain ⟨r, c, hs, hnone⟩ := hv1 rfl
      refine ⟨fun hall => ?_, fun _ => ?_⟩
      · obtain ⟨v, hv⟩ := hall r c hs
        rw [hnone] at hv
        cases hv
      · simp only [if_true]
        have hlen : mem'.bufs.length = mem.bufs.length + 1 := by rw [hfr.nbufs, h2.nbufs]
        refine ⟨_, rfl, ⟨by simp only [List.length_set]; omega, fun q hq => ?_⟩, fun b hb => ?_⟩
        · rw [← hext.2 q hq]
          simp only [Mem.get?, hRb]
          rw [List.getElem?_set_ne (by omega)]
        · simp only [Mem.size, hRb]
          by_cases hbe : b = mem.bufs.length
          · subst hbe
            rw [List.getElem?_set_self (by omega)]
            rfl
          · rw [List.getElem?_eq_none (by simp only [List.length_set]; omega)]
            rfl
    | false =>
      have hv := hv2 rfl
      refine ⟨fun _ => ?_, fun hnot => ?_⟩
      · simp only [Bool.false_eq_true, if_false]
        exact ⟨R, mem', rfl, hRl, h2.sound.mono (by rw [hfr.size]), h2.fresh, hext,
          fun r c hs => (hv r c hs (hlt r c hs)).2⟩
      · exact absurd (fun r c hs => (hv r c ((hst r c).2 hs) (hlt r c ((hst r c).2 hs))).1) hnot
  · rintro i ⟨p, mem1⟩ hi ⟨hfr, hv1, hv2⟩
    cases p with
    | true =>
      exact ⟨(true, mem1), by simp, hfr, fun _ => hv1 rfl, by simp⟩
    | false =>
      obtain ⟨r, c, hs, rfl⟩ := exists_index hi
      have hext := hfr.extends h2.ext h2.fresh
      have hok1 : MatOK mem1 m := h.mono fun b => hext.size_le b
      have hval := arith_congr A h hext hs
      have hget := arith_unchecked A hok1 cfg hs
      rw [hval] at hget
      simp only [Bool.false_eq_true, if_false, hget]
      cases hv : arithValue A mem r c m with
      | none => exact ⟨(true, mem1), rfl, hfr, fun _ => ⟨r, c, hs, hv⟩, by simp⟩
      | some v =>
        have hsR : Stored R.layout r c := by rw [hRl, index_layout_stored]; exact hs
        have hiR : index R.layout r c = index m.layout r c := by rw [hRl, index_layout_index]
        have hR1 : Sound R mem1 := h2.sound.mono (by rw [hfr.size])
        obtain ⟨mem2, hw, hu⟩ := Mem.write_upd (v := v) (hR1.cell_lt hsR)
        have hp := hR1.get1d_unchecked_mut cfg hsR
        rw [hiR] at hp
        refine ⟨(false, mem2), by simp [Out.ofOption, hp, hw], hfr.trans (FrameOf.of_upd hsR hu),
          by simp, fun _ r' c' hs' hi' => ?_⟩
        by_cases he : r' = r ∧ c' = c
        · obtain ⟨rfl, rfl⟩ := he
          exact ⟨⟨v, hv⟩, by rw [elem_upd_self hu, hv]⟩
        · rw [elem_upd_other hn hsR hu hs' he]
          apply hv2 rfl r' c' hs'
          have : index R.layout r' c' ≠ index m.layout r c := by
            rw [← hiR]
            intro hcon
            exact he (index_inj hs' hsR hcon)
          omega

theorem MatOK.eval_unwind_panic [Target] [Zero α] (A : Arith α) {mem : Mem α} {m : Mat α} (h : MatOK mem m)
    (cfg : Cfg) (hbad : ¬ ((m.layout.indexKind = .columnVector → m.layout.dim.1 = 1) ∧
      count m.layout * cfg.item.size ≤ isizeMax)) : m.eval_unwind A cfg mem = .ok (none, mem) := by
  have : zeros_from_dim cfg m.layout.indexKind m.layout.dim.1 m.layout.dim.2 mem = .panic := by
    by_cases hk : m.layout.indexKind = .columnVector → m.layout.dim.1 = 1
    · have hsz : ¬ count m.layout * cfg.item.size ≤ isizeMax := fun hsz => hbad ⟨hk, hsz⟩
      exact C51_partial cfg m.layout.indexKind m.layout.dim.1 m.layout.dim.2 mem _
        (from_dimension_kind hk)
        (.inr (by rw [index_layout_count, index_layout_triFits]; exact ⟨h.count_lt, h.triFits⟩))
        (by rw [index_layout_count]; omega)
    · push Not at hk
      obtain ⟨h1, h2⟩ := hk
      have : m.layout.indexKind.from_dimension m.layout.dim = .panic := by
        rw [h1]; simp [BaseKind.from_dimension, ColumnVector.from_dimension, Out.assert, h2]
      simp [zeros_from_dim, this]
  simp [Mat.eval_unwind, this]

/-! ### C78 -/

/-- **C78**, `for_each` with a callable that may panic at any element: the elements in 1D order are
those that the callable left when it was applied to one after the other until it panicked; nothing
else in memory has changed; and the library itself does not panic. -/
theorem C78_for_each [Target] {σ : Type} (cfg : Cfg) (m : BaseMatrix) (mem : Mem α) (h : Sound m mem)
    (hn : NonOverlapping m.layout) (f : σ → α → σ × α × Bool) (s : σ) :
    ∃ vs mem', Reads cfg m mem vs ∧
      m.for_each_unwind cfg f s mem = .ok ((sweep f s vs).1, (sweep f s vs).2.1, mem') ∧
      Reads cfg m mem' (sweep f s vs).2.2 ∧
      ∀ q, (∀ r c, Stored m.layout r c → q ≠ cell m r c) → mem'.get? q = mem.get? q := by
  obtain ⟨vs, hv⟩ := reads_some h cfg
  obtain ⟨mem', e, hr, hf⟩ := for_each_sweep h hn cfg f s hv
  exact ⟨vs, mem', hv, e, hr, hf.other⟩

/-- **C78**, the crash point: if the callable panics first at the `j`-th element, exactly the first
`j` elements have been updated, the `j`-th is what the callable left there, the others are as
before. -/
theorem C78_crash_point [Target] {σ : Type} (cfg : Cfg) (m : BaseMatrix) (mem : Mem α) (h : Sound m mem)
    (hn : NonOverlapping m.layout) (f : σ → α → σ × α × Bool) (st : Nat → σ) (vs : List α)
    (hv : Reads cfg m mem vs) (j : Nat) (hj : j < vs.length)
    (hok : ∀ k (_ : k < vs.length), k < j →
      f (st k) vs[k] = (st (k + 1), (f (st k) vs[k]).2.1, false))
    (hp : (f (st j) vs[j]).2.2 = true) :
    ∃ mem', m.for_each_unwind cfg f (st 0) mem = .ok (true, (f (st j) vs[j]).1, mem') ∧
      Reads cfg m mem' ((vs.take j).mapIdx (fun k v => (f (st k) v).2.1) ++
        (f (st j) vs[j]).2.1 :: vs.drop (j + 1)) ∧
      ∀ q, (∀ r c, Stored m.layout r c → q ≠ cell m r c) → mem'.get? q = mem.get? q := by
  obtain ⟨mem', e, hr, hf⟩ := for_each_sweep h hn cfg f (st 0) hv
  rw [sweep_first f st vs j hj hok hp] at e hr
  exact ⟨mem', e, hr, hf.other⟩

/-- **C78**, without panics of the callable `for_each` is what it was. -/
theorem C78_no_panic [Target] {σ : Type} (cfg : Cfg) (m : BaseMatrix) (mem : Mem α) (h : Sound m mem)
    (f : σ → α → σ × α) (s : σ) :
    m.for_each_unwind cfg (fun s v => ((f s v).1, (f s v).2, false)) s mem =
      (m.for_each cfg f s mem >>= fun x => .ok (false, x)) := by
  unfold BaseMatrix.for_each_unwind BaseMatrix.for_each loopUnwind
  rw [h.number_of_elements cfg]
  simp only [orUnwind_ok, Out.bind_ok]
  have := OutRel.forRange (Q := fun (x : Bool × σ × Mem α) (y : σ × Mem α) => x = (false, y) ∧
      ∀ b, y.2.size b = mem.size b) (n := count m.layout)
    (f := fun i st => if st.1 = true then .ok st else
      orUnwind (m.get1d_unchecked_mut cfg i) st.2 fun p => do
        let v ← st.2.2.read p
        let r := ((f st.2.1 v).1, (f st.2.1 v).2, false)
        let mem' ← st.2.2.write p r.2.1
        return (r.2.2, r.1, mem'))
    (g := fun index st => do
      let p ← m.get1d_unchecked_mut cfg index
      let v ← st.2.read p
      let r := f st.1 v
      let mem' ← st.2.write p r.2
      return (r.1, mem')) ?_ (a := (false, s, mem)) (b := (s, mem)) ⟨rfl, fun _ => rfl⟩
  · revert this
    generalize forRange (count m.layout) _ (false, s, mem) = x
    generalize forRange (count m.layout) _ (s, mem) = y
    intro this
    cases this with
    | ok h => rw [h.1]; rfl
    | panic => rfl
    | ub => rfl
  · rintro i _ ⟨s', mem'⟩ hi ⟨rfl, hs⟩
    obtain ⟨r, c, hst, rfl⟩ := exists_index hi
    have h' : Sound m mem' := h.mono (by rw [hs])
    have hp := h'.get1d_unchecked_mut cfg hst
    obtain ⟨v, hv, -⟩ := Mem.read_ok (h'.cell_lt hst)
    obtain ⟨mem'', hw, hu⟩ := Mem.write_upd (v := (f s' v).2) (h'.cell_lt hst)
    simp only [hp, Out.bind_ok, hv, orUnwind_ok, Bool.false_eq_true, if_false, hw]
    exact .ok ⟨rfl, fun b => by rw [hu.size, hs]⟩

theorem sweep_fill {ρ : Type} (draw : ρ → Option α × ρ) (st : Nat → ρ) (w : Nat → α) (vs : List α)
    (j : Nat) (hj : j < vs.length)
    (hd : ∀ k, k < j → draw (st k) = (some (w k), st (k + 1))) (hp : (draw (st j)).1 = none) :
    sweep (fun rng v =>
      let r := draw rng
      match r.1 with
      | some w => (r.2, w, false)
      | none => (r.2, v, true)) (st 0) vs =
      (true, (draw (st j)).2, (List.range j).map w ++ vs.drop j) := by
  rw [sweep_first _ st vs j hj (fun k hk hkj => by simp [hd k hkj]) (by simp [hp])]
  simp only [hp, Prod.mk.injEq, true_and]
  have h1 : vs.drop j = vs[j] :: vs.drop (j + 1) := List.drop_eq_getElem_cons hj
  rw [h1]
  congr 1
  refine List.ext_getElem (by simp; omega) fun k h1 h2 => ?_
  simp only [List.length_mapIdx, List.length_take] at h1
  simp [hd k (by omega)]

/-- **C78**, random fill with a generator that panics at the `j`-th number: the first `j` elements
are the numbers drawn, the others as before. -/
theorem C78_fill [Target] {ρ : Type} (cfg : Cfg) (m : BaseMatrix) (mem : Mem α) (h : Sound m mem)
    (hn : NonOverlapping m.layout) (draw : ρ → Option α × ρ) (st : Nat → ρ) (w : Nat → α)
    (vs : List α) (hv : Reads cfg m mem vs) (j : Nat) (hj : j < vs.length)
    (hd : ∀ k, k < j → draw (st k) = (some (w k), st (k + 1))) (hp : (draw (st j)).1 = none) :
    ∃ mem', m.fill_from_rand_unwind cfg draw (st 0) mem = .ok (true, (draw (st j)).2, mem') ∧
      Reads cfg m mem' ((List.range j).map w ++ vs.drop j) ∧
      ∀ q, (∀ r c, Stored m.layout r c → q ≠ cell m r c) → mem'.get? q = mem.get? q := by
  obtain ⟨mem', e, hr, hf⟩ := for_each_sweep h hn cfg (fun rng v =>
    let r := draw rng
    match r.1 with
    | some w => (r.2, w, false)
    | none => (r.2, v, true)) (st 0) hv
  rw [sweep_fill draw st w vs j hj hd hp] at e hr
  exact ⟨mem', e, hr, hf.other⟩

/-- **C78**, `eval` with arithmetic that may panic: if it does not, the result is there; if it does at
any element, or if the library rejects the size, all old memory is as before and nothing new is left
behind. -/
theorem C78_eval [Target] [Zero α] (cfg : Cfg) (A : Arith α) (e : Ex α) (mem : Mem α) (m : Mat α)
    (ht : e.Typed) (hl : ∀ b ∈ e.leaves, Sound b mem) (hb : e.build = .ok m) :
    let fine := (e.kind = .columnVector → e.dim.1 = 1) ∧
      (orderOf e.kind e.dim).length * cfg.item.size ≤ isizeMax ∧
      ∀ r c, (r, c) ∈ orderOf e.kind e.dim → ∃ v, e.arithValue A mem r c = some v
    (fine → ∃ R mem', m.eval_unwind A cfg mem = .ok (some R, mem') ∧ R.layout.dim = e.dim ∧
      Sound R mem' ∧ Fresh R mem ∧ Extends mem mem' ∧
      ∀ r c, (r, c) ∈ orderOf e.kind e.dim → ∃ v, e.arithValue A mem r c = some v ∧
        R.get cfg mem' r c = .ok v) ∧
    (¬ fine → ∃ mem', m.eval_unwind A cfg mem = .ok (none, mem') ∧ Extends mem mem' ∧
      ∀ b, mem.bufs.length ≤ b → mem'.size b = 0) := by
  obtain ⟨h1, h2⟩ := e.build_spec ht
  have hc : e.Conform := by
    by_contra h
    rw [h2 h] at hb; exact absurd hb (by simp)
  obtain ⟨m', hm, hd, hki, -, hok, -⟩ := h1 hc
  obtain rfl : m = m' := by rw [hb] at hm; simpa using hm
  have hok := hok mem hl
  have ho : orderOf e.kind e.dim = order m.layout := by rw [order_eq_orderOf, hd, hki]
  have hval := build_arith A hb mem
  have hmem : ∀ r c, (r, c) ∈ order m.layout ↔ Stored m.layout r c := by
    intro r c
    constructor
    · intro hp
      obtain ⟨k, hk⟩ := List.getElem?_of_mem hp
      exact (order_get_iff.1 hk).1
    · intro hs
      exact List.mem_of_getElem? (order_index hs)
  simp only [ho, order_length, ← hval, hmem]
  rw [← hki, ← hd]
  by_cases hz : (m.layout.indexKind = .columnVector → m.layout.dim.1 = 1) ∧
      count m.layout * cfg.item.size ≤ isizeMax
  · obtain ⟨g1, g2⟩ := MatOK.eval_unwind A hok cfg hz.1 hz.2
    refine ⟨fun hf => ?_, fun hf => g2 fun hall => hf ⟨hz.1, hz.2, hall⟩⟩
    obtain ⟨R, mem', e1, e2, e3, e4, e5, e6⟩ := g1 hf.2.2
    refine ⟨R, mem', e1, by rw [e2, index_layout_dim], e3, e4, e5, fun r c hs => ?_⟩
    obtain ⟨v, hv⟩ := hf.2.2 r c hs
    have hsR : Stored R.layout r c := by rw [e2, index_layout_stored]; exact hs
    exact ⟨v, hv, e3.get cfg hsR (by rw [e6 r c hsR, hv])⟩
  · refine ⟨fun hf => absurd ⟨hf.1, hf.2.1⟩ hz, fun _ => ⟨mem,
      MatOK.eval_unwind_panic A hok cfg hz, ⟨le_refl _, fun _ _ => rfl⟩, fun b hb => ?_⟩⟩
    exact Mem.size_eq_zero hb

/-- **C78**, `matmul` panics before it writes anything, for all operands. -/
theorem C78_matmul [Target] (kern : Kern α) (alpha beta : α) (a b c : BaseMatrix) (mem : Mem α) :
    matmul_unwind kern alpha a b beta c mem = match matmul kern alpha a b beta c mem with
      | .ok mem' => .ok (false, mem')
      | .panic => .ok (true, mem)
      | .ub => .ub := by
  unfold matmul_unwind matmul
  simp only
  cases Out.assert (a.layout.dim.2 = b.layout.dim.1 ∧ c.layout.dim.1 = a.layout.dim.1 ∧
      c.layout.dim.2 = b.layout.dim.2) with
  | panic => rfl
  | ub => rfl
  | ok _ =>
    cases a.layout.stride with
    | panic => rfl
    | ub => rfl
    | ok sa =>
      cases b.layout.stride with
      | panic => rfl
      | ub => rfl
      | ok sb =>
        cases c.layout.stride with
        | panic => rfl
        | ub => rfl
        | ok sc =>
          simp only [orUnwind_ok, Out.bind_ok]
          have := gemm_ne_panic kern a.layout.dim.1 a.layout.dim.2 b.layout.dim.2 alpha beta
            a.get_pointer b.get_pointer c.get_pointer (asIsize sa.1) (asIsize sa.2) (asIsize sb.1)
            (asIsize sb.2) (asIsize sc.1) (asIsize sc.2) mem
          revert this
          generalize gemm kern a.layout.dim.1 a.layout.dim.2 b.layout.dim.2 alpha a.get_pointer
            (asIsize sa.1) (asIsize sa.2) b.get_pointer (asIsize sb.1) (asIsize sb.2) beta
            c.get_pointer (asIsize sc.1) (asIsize sc.2) mem = x
          intro this
          cases x with
          | ok x => rfl
          | panic => exact absurd rfl this
          | ub => rfl

section

variable [Zero α] [One α] [Add α] [Mul α]

theorem unwind_step [Target] {cfg : Cfg} {kern : Kern α} {s : St α} (hi : Inv s) {op : POp α}
    (h : Regular cfg s op) : ∃ o s', op.step cfg kern s = some (o, s') ∧ Inv s' := by
  have each : ∀ {σ : Type} (k : Nat) (b : BaseMatrix), s.base? k = some b →
      ∀ (f : σ → α → σ × α × Bool) (x : σ),
        ∃ o s', s.afterUnwind (b.for_each_unwind cfg f x s.mem) = some (o, s') ∧ Inv s' := by
    intro σ k b hb f x
    have hg := hi.base hb
    obtain ⟨vs, hv⟩ := reads_some hg.sound cfg
    obtain ⟨mem', e, -, hf⟩ := for_each_sweep hg.sound hg.noOverlap cfg f x hv
    exact ⟨_, _, by rw [e]; rfl, hi.mem fun y => by rw [hf.size]⟩
  cases op with
  | op o =>
    have := step_good cfg kern s hi o h.1 h.2.1 h.2.2.1 h.2.2.2
    rcases this with e | ⟨x, s', e, hx, -⟩
    · exact ⟨.panicked, s, by simp [POp.step, Op.step, e], hi⟩
    · exact ⟨x, s', by simp [POp.step, Op.step, e], hx⟩
  | forEach k f =>
    cases hb : s.base? k with
    | none => exact ⟨.panicked, s, by simp [POp.step, hb], hi⟩
    | some b =>
      obtain ⟨o, s', e, h'⟩ := each k b hb (fun (σ : List α) v => (σ ++ [v], (f σ v).1, (f σ v).2)) []
      exact ⟨o, s', by simpa [POp.step, hb] using e, h'⟩
  | fillRand k draw =>
    cases hb : s.base? k with
    | none => exact ⟨.panicked, s, by simp [POp.step, hb], hi⟩
    | some b =>
      obtain ⟨o, s', e, h'⟩ := each k b hb (fun rng v =>
        let r := (fun k => (draw k, k + 1)) rng
        match r.1 with
        | some w => (r.2, w, false)
        | none => (r.2, v, true)) 0
      exact ⟨o, s', by simp only [POp.step, hb]; exact e, h'⟩

/-- **C78**, programs that catch panics of their callables and generators at any element, and of the
library, and continue, do not reach undefined behaviour (under the conditions of C50). -/
theorem C78_programs [Target] (cfg : Cfg) (kern : Kern α) (ops : List (POp α))
    (h : AlongUnwind cfg kern (Regular cfg) St.init ops) :
    ∃ os s, runUnwind cfg kern St.init ops = some (os, s) ∧ os.length = ops.length ∧
      Accessible cfg s := by
  suffices ∀ s : St α, Inv s → ∀ ops, AlongUnwind cfg kern (Regular cfg) s ops →
      ∃ os s', runUnwind cfg kern s ops = some (os, s') ∧ os.length = ops.length ∧ Inv s' by
    obtain ⟨os, s, e, hl, hi⟩ := this St.init (by intro m hm; simp [St.init] at hm) ops h
    exact ⟨os, s, e, hl, hi.accessible cfg⟩
  intro s hi ops
  induction ops generalizing s with
  | nil => intro _; exact ⟨[], s, rfl, rfl, hi⟩
  | cons op ops ih =>
    rintro ⟨h1, h2⟩
    obtain ⟨o, s1, e1, hi1⟩ := unwind_step (kern := kern) hi h1
    obtain ⟨os, s2, e2, l2, hi2⟩ := ih s1 hi1 (h2 o s1 e1)
    exact ⟨o :: os, s2, by simp [runUnwind, e1, e2], by simp [l2], hi2⟩

end

/-! ### Examples -/

/-- A 2 × 3 block, in the middle of 12 numbers. -/
def unwindBlock : BaseMatrix := ⟨⟨0, 1, 10⟩, .asRowMajor ⟨(2, 3), (5, 1)⟩, .dynamic, .dynamic⟩

def unwindMem : Mem Int := ⟨[[0, 1, 2, 3, 4, 5, 6, 7, 8, 9, 10, 11]]⟩

theorem unwindBlock_sound [Target] : Sound unwindBlock unwindMem := by
  refine ⟨⟨by decide_width, by decide_width⟩, ?_, by decide_width⟩
  rintro r c ⟨h1, h2, -⟩
  simp only [unwindBlock, Layout.dim] at h1 h2 ⊢
  simp [raw]; omega

/-- A callable that counts, squares, and panics at the fourth element after it has set it to zero. -/
def unwindCall (n : Nat) (v : Int) : Nat × Int × Bool := if n = 3 then (n, 0, true) else (n + 1, v * v, false)

example : unwindBlock.for_each_unwind dbg unwindCall 0 unwindMem =
    .ok (true, 3, ⟨[[0, 1, 4, 9, 4, 5, 0, 7, 8, 9, 10, 11]]⟩) := by decide

example : Reads dbg unwindBlock unwindMem [1, 2, 3, 6, 7, 8] ∧
    sweep unwindCall 0 [1, 2, 3, 6, 7, 8] = (true, 3, [1, 4, 9, 0, 7, 8]) := by
  refine ⟨(reads_iff unwindBlock_sound dbg _).2 ⟨rfl, fun k r c hk => ?_⟩, by decide⟩
  obtain ⟨⟨h1, h2, -⟩, rfl⟩ := order_get_iff.1 hk
  have h1 : r < 2 := h1
  have h2 : c < 3 := h2
  have : ∀ r < 2, ∀ c < 3, elem unwindBlock unwindMem r c =
      [1, 2, 3, 6, 7, 8][index unwindBlock.layout r c]? := by decide
  exact this r h1 c h2

example : NonOverlapping unwindBlock.layout := by simp [unwindBlock, NonOverlapping]

/-- The crash point of the example. -/
example : ∃ mem', unwindBlock.for_each_unwind dbg unwindCall 0 unwindMem = .ok (true, 3, mem') :=
  ⟨_, rfl⟩

/-- Arithmetic that panics when a sum exceeds 10, as a checked integer type would. -/
def smallArith : Arith Int := ⟨fun a b => if a + b ≤ 10 then some (a + b) else none, fun a b => some (a * b)⟩

/-- `(&m + &m).eval()` panics at the fourth element; afterwards the memory is as before. -/
example : (Mat.addition (.ref (.base unwindBlock)) (.ref (.base unwindBlock))
      (.rowMajor ⟨(2, 3)⟩)).eval_unwind smallArith dbg unwindMem =
    .ok (none, ⟨[[0, 1, 2, 3, 4, 5, 6, 7, 8, 9, 10, 11], []]⟩) := by decide +kernel

example : (Ex.add true true (.leaf unwindBlock) (.leaf unwindBlock) : Ex Int).build =
    .ok (Mat.addition (.ref (.base unwindBlock)) (.ref (.base unwindBlock)) (.rowMajor ⟨(2, 3)⟩)) :=
  rfl

/-- A program whose callable panics and which goes on. -/
def unwindProgram : List (POp Int) :=
  [.op (.zeros .rowMajor 2 2), .fillRand 0 (fun k => if k < 3 then some (k + 1) else none),
   .forEach 0 (fun seen v => (v + 10, decide (seen.length = 1))), .op (.get 0 0 1), .op (.eval 0),
   .op (.get 1 1 0)]

example : AlongUnwind dbg exactKern (Regular dbg) St.init unwindProgram :=
  ⟨⟨trivial, trivial, trivial, .inl rfl⟩, fun _ _ _ => ⟨trivial, fun _ _ _ => ⟨trivial, fun _ _ _ =>
    ⟨⟨trivial, trivial, trivial, .inl rfl⟩, fun _ _ _ => ⟨⟨trivial, trivial, trivial, .inl rfl⟩,
      fun _ _ _ => ⟨⟨trivial, trivial, trivial, .inl rfl⟩, fun _ _ _ => trivial⟩⟩⟩⟩⟩⟩

example : (runUnwind dbg exactKern St.init unwindProgram).map (fun x => x.1) =
    some [.done, .panicked, .panicked, .value 12, .done, .value 3] := by decide +kernel

theorem unwindBlock_reads : Reads dbg unwindBlock unwindMem [1, 2, 3, 6, 7, 8] := by
  refine (reads_iff unwindBlock_sound dbg _).2 ⟨rfl, fun k r c hk => ?_⟩
  obtain ⟨⟨h1, h2, -⟩, rfl⟩ := order_get_iff.1 hk
  have h1 : r < 2 := h1
  have h2 : c < 3 := h2
  have : ∀ r < 2, ∀ c < 3, elem unwindBlock unwindMem r c =
      [1, 2, 3, 6, 7, 8][index unwindBlock.layout r c]? := by decide
  exact this r h1 c h2

/-- By `C78_crash_point` with a panic at the fourth element the first three are squared, the fourth is zero
and the others are as before. -/
example : ∃ mem', unwindBlock.for_each_unwind dbg unwindCall 0 unwindMem = .ok (true, 3, mem') ∧
    Reads dbg unwindBlock mem' [1, 4, 9, 0, 7, 8] := by
  obtain ⟨mem', e, h, -⟩ := C78_crash_point dbg unwindBlock unwindMem unwindBlock_sound
    (by simp [unwindBlock, NonOverlapping]) unwindCall id _ unwindBlock_reads 3 (by decide)
    (fun k hk hj => by
      match k, hj with
      | 0, _ => rfl
      | 1, _ => rfl
      | 2, _ => rfl) rfl
  exact ⟨mem', e, h⟩

/-- By `C78_fill` a generator that panics at its third number leaves the two numbers drawn before. -/
example : ∃ mem', unwindBlock.fill_from_rand_unwind dbg
      (fun n : Int => if n < 22 then (some (n * n), n + 1) else (none, n)) 20 unwindMem = .ok (true, 22, mem') ∧
    Reads dbg unwindBlock mem' [400, 441, 3, 6, 7, 8] := by
  obtain ⟨mem', e, h, -⟩ := C78_fill dbg unwindBlock unwindMem unwindBlock_sound
    (by simp [unwindBlock, NonOverlapping])
    (fun n : Int => if n < 22 then (some (n * n), n + 1) else (none, n)) (fun k => 20 + k)
    (fun k => (20 + k) * (20 + k)) _ unwindBlock_reads 2 (by decide)
    (fun k hj => by
      match k, hj with
      | 0, _ => rfl
      | 1, _ => rfl) rfl
  exact ⟨mem', e, h⟩

/-- By `C78_eval` a sum that panics at one element leaves the memory as it was, and nothing else. -/
example : ∃ m mem', (Ex.add true true (.leaf unwindBlock) (.leaf unwindBlock) : Ex Int).build = .ok m ∧
    m.eval_unwind smallArith dbg unwindMem = .ok (none, mem') ∧ Extends unwindMem mem' ∧
    ∀ b, 1 ≤ b → mem'.size b = 0 := by
  obtain ⟨mem', h⟩ := (C78_eval dbg smallArith (Ex.add true true (.leaf unwindBlock) (.leaf unwindBlock)) unwindMem _
    ⟨trivial, trivial, rfl, rfl⟩
    (fun b hb => by
      obtain rfl : b = unwindBlock := by simpa [Ex.leaves] using hb
      exact unwindBlock_sound) rfl).2
    (fun h => by
      obtain ⟨v, hv⟩ := h.2.2 1 0 (by decide)
      exact nomatch (show (none : Option Int) = some v from hv))
  exact ⟨_, mem', rfl, h⟩

end Householder.Props
