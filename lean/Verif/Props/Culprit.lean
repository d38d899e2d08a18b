import Verif.Lemmas.Culprit
import Verif.Props.Exact

/-!
# C85: where undefined behaviour comes from, in every build and for every layout

`C50_exact` says when a program gets to undefined behaviour in a build with overflow checks and
without arbitrary strides. Here there is no restriction: whatever the build, the layouts, the strides
and the sizes, a program gets to undefined behaviour exactly at an operation that reaches outside a
container or breaks the contract of the matrix product.
-/

namespace Householder.Props

open Spec

variable {α : Type}

/-- The container of everything a program has made is in memory. -/
def Windows (s : St α) : Prop := ∀ m ∈ s.mats, ∀ b ∈ parts m, InMem b s.mem

theorem Windows.mat {s : St α} (h : Windows s) {k : Nat} {m : Mat α} (hm : s.mats[k]? = some m) :
    ∀ b ∈ parts m, InMem b s.mem := h m (List.mem_of_getElem? hm)

theorem Windows.base {s : St α} (h : Windows s) {k : Nat} {b : BaseMatrix}
    (hb : s.base? k = some b) : InMem b s.mem := by
  unfold St.base? at hb
  split at hb
  · rename_i b' hb'
    cases hb
    exact h.mat hb' b (by simp [parts])
  · cases hb

section Any

variable [Target] {cfg : Cfg}

theorem from_data_ne_ub {rs cs : SizeId} {d : Container} {l : Layout} :
    from_data cfg rs cs d l ≠ .ub := by
  unfold from_data BaseMatrix.new
  intro h
  simp only [Out.bind_eq_ub, number_of_elements_ne_ub, false_or, Out.pure_eq, reduceCtorEq,
    and_false, exists_false, or_false] at h
  obtain ⟨n, -, h⟩ := h
  unfold Out.assert at h
  split at h <;> simp at h

theorem newVector_ne_ub [Zero α] {mem : Mem α} {n : Nat} : Container.newVector cfg mem n ≠ .ub := by
  unfold Container.newVector
  split <;> simp

theorem newSlice_ne_ub {mem : Mem α} {xs : List α} : Container.newSlice cfg mem xs ≠ .ub := by
  unfold Container.newSlice
  split <;> simp

omit [Target] in
theorem assert_ne_ub {p : Prop} [Decidable p] : Out.assert p ≠ .ub := by
  unfold Out.assert; split <;> simp

theorem zeros_ne_ub [Zero α] {k : BaseKind} {r c : Nat} {mem : Mem α} :
    zeros_from_dim cfg k r c mem ≠ .ub := by
  simp [zeros_from_dim, Out.bind_eq_ub, from_dimension_ne_ub, number_of_elements_ne_ub,
    newVector_ne_ub, from_data_ne_ub]

omit [Target] in
theorem get_slice_ok_window {d w : Container} {first last : Nat}
    (h : d.get_slice first last = .ok w) :
    w.buf = d.buf ∧ d.off ≤ w.off ∧ w.off + w.len ≤ d.off + d.len := by
  simp only [Container.get_slice, Out.bind_eq_ok] at h
  obtain ⟨_, -, _, -, p, hp, h⟩ := h
  unfold Ptr.add at hp
  split at hp
  · rename_i hle'
    cases hp
    unfold Ptr.from_raw_parts at h
    split at h
    · rename_i hle
      cases h
      have h1 : d.get_pointer.off = 0 := rfl
      have h2 : d.get_pointer.prov = d := rfl
      simp only [h1, h2] at hle ⊢
      exact ⟨trivial, by omega, by omega⟩
    · cases h
  · cases hp

omit [Target] in
theorem get_slice_ne_ub {d : Container} {first last : Nat} : d.get_slice first last ≠ .ub := by
  intro h
  unfold Container.get_slice at h
  by_cases h1 : first < last
  · rw [Out.assert_pos h1, Out.bind_ok] at h
    by_cases h2 : last ≤ d.number_of_elements
    · rw [Out.assert_pos h2, Out.bind_ok] at h
      simp only [Container.number_of_elements] at h2
      simp [Ptr.add, Container.get_pointer, Ptr.from_raw_parts, show first ≤ d.len by omega,
        show first + (last - first) ≤ d.len by omega] at h
    · rw [Out.assert_neg h2] at h; simp at h
  · rw [Out.assert_neg h1] at h; simp at h

omit [Target] in
theorem get_slice_mut_ne_ub {d : Container} {first last : Nat} :
    d.get_slice_mut first last ≠ .ub := by
  intro h
  unfold Container.get_slice_mut at h
  by_cases h1 : first < last
  · rw [Out.assert_pos h1, Out.bind_ok] at h
    by_cases h3 : first < d.number_of_elements
    · rw [Out.assert_pos h3, Out.bind_ok] at h
      by_cases h2 : last ≤ d.number_of_elements
      · rw [Out.assert_pos h2, Out.bind_ok] at h
        simp only [Container.number_of_elements] at h2
        simp [Ptr.add, Container.get_pointer, Ptr.from_raw_parts, show first ≤ d.len by omega,
          show first + (last - first) ≤ d.len by omega] at h
      · rw [Out.assert_neg h2] at h; simp at h
    · rw [Out.assert_neg h3] at h; simp at h
  · rw [Out.assert_neg h1] at h; simp at h

omit [Target] in
theorem mapM_ne_ub {β γ : Type} {f : β → Out γ} {xs : List β} (h : ∀ x ∈ xs, f x ≠ .ub) :
    xs.mapM f ≠ .ub := by
  induction xs with
  | nil => simp
  | cons x xs ih =>
    simp only [List.mapM_cons, ne_eq, Out.bind_eq_ub, Out.pure_eq, reduceCtorEq, and_false,
      exists_false, or_false, not_or]
    refine ⟨h x (by simp), ?_⟩
    rintro ⟨a, -, h'⟩
    exact ih (fun y hy => h y (by simp [hy])) h'

omit [Target] in
theorem toList_ne_ub {w : Container} {mem : Mem α} (h : w.off + w.len ≤ mem.size w.buf) :
    w.toList mem ≠ .ub := by
  refine mapM_ne_ub fun i hi => ?_
  obtain ⟨v, hv⟩ := get_unchecked_in (b := ⟨w, .rowVector ⟨0⟩, .dynamic, .dynamic⟩) (mem := mem) h
    (List.mem_range.1 hi)
  simp only at hv
  rw [hv]; simp

omit [Target] in
theorem writeList_ne_ub {w : Container} {mem : Mem α} {xs : List α}
    (h : w.off + w.len ≤ mem.size w.buf) : w.writeList mem xs ≠ .ub := by
  unfold Container.writeList
  split
  · rename_i hl
    have := forRange_inv (s := mem) (n := xs.length)
      (body := fun i mem => match xs[i]? with
        | some v => do
            let p ← w.get_unchecked_mut i
            mem.write p v
        | none => .panic)
      (fun _ m => m.size w.buf = mem.size w.buf) rfl fun i m hi hm => by
        have hx : xs[i]? = some xs[i] := List.getElem?_eq_getElem hi
        obtain ⟨m', hm'⟩ := write_in (mem := m) (p := ⟨w.buf, w.off + i⟩) xs[i]
          (by simp only; omega)
        refine ⟨m', ?_, ?_⟩
        · simp [hx, Container.get_unchecked_mut, show i < w.len by omega, hm']
        · rw [← hm]
          exact (Only.write (d := w) ⟨rfl, by simp, by simp only; omega⟩ hm').size _
    obtain ⟨mem', e, -⟩ := this
    intro h'
    exact absurd (e.symm.trans h') (by simp)
  · simp

/-! ## One operation -/

section Steps

variable [Zero α] [One α] [Add α] [Mul α]

omit [Zero α] [One α] [Add α] [Mul α] in
theorem ubIf_iff {o : Out (Obs α × St α)} {s : St α} {op : Op α}
    (h : UbIf o (accesses cfg s op)) (hb : ¬ BadProduct cfg s op) :
    o = .ub ↔ Culprit cfg s op := by
  unfold Culprit
  rw [show (o = .ub ↔ _) from h]
  simp [hb]

omit [Zero α] [One α] [Add α] [Mul α] in
theorem noAccess_iff {o : Out (Obs α × St α)} {s : St α} {op : Op α} (ho : o ≠ .ub)
    (ha : accesses cfg s op = []) (hb : ¬ BadProduct cfg s op) :
    o = .ub ↔ Culprit cfg s op := by
  refine ubIf_iff ?_ hb
  rw [ha]
  simp [UbIf, ho, leaves_nil]

omit [Zero α] [One α] in
theorem exec_ubIf {b : BaseMatrix} {mem : Mem α} (h : InMem b mem) (op : ArrOp α) :
    UbIf (exec cfg b mem op) (match op with
      | .get r c => checked2d cfg (.base b : Mat α) r c
      | .set r c _ => checked2d cfg (.base b : Mat α) r c
      | .update r c _ => checked2d cfg (.base b : Mat α) r c
      | .get1d k => checked1d cfg (.base b : Mat α) k
      | .set1d k _ => checked1d cfg (.base b : Mat α) k
      | .update1d k _ => checked1d cfg (.base b : Mat α) k) := by
  have hp : ∀ b' ∈ parts (.base b : Mat α), InMem b' mem := by
    intro b' hb'
    obtain rfl : b' = b := by simpa [parts] using hb'
    exact h
  have m2 : ∀ r c, UbIf (b.get_mut cfg r c) (checked2d cfg (.base b : Mat α) r c) :=
    fun r c => UbIf.checked2d (m := .base b) (tracks_mut2d b r c)
  have m1 : ∀ k, UbIf (b.get1d_mut cfg k) (checked1d cfg (.base b : Mat α) k) :=
    fun k => UbIf.checked1d (m := .base b) (tracks_mut1d b k)
  have hw : ∀ p v, Holds b.data p → mem.write p v ≠ .ub := by
    intro p v hp
    obtain ⟨m, hm⟩ := write_in v (h.holds hp)
    rw [hm]; simp
  have hr : ∀ p, Holds b.data p → mem.read p ≠ .ub := by
    intro p hp
    obtain ⟨m, hm⟩ := read_in (h.holds hp)
    rw [hm]; simp
  cases op with
  | get r c =>
    exact (UbIf.checked2d (m := .base b) (tracks_at2d (.base b) hp)).done (by simp)
  | get1d k =>
    exact (UbIf.checked1d (m := .base b) (tracks_at1d (.base b) hp)).done (by simp)
  | set r c v =>
    exact ((m2 r c).done fun p hp => hw p v (get_mut_holds hp)).done (by simp)
  | set1d k v =>
    exact ((m1 k).done fun p hp => hw p v (get1d_mut_holds hp)).done (by simp)
  | update r c f =>
    refine (m2 r c).done fun p hp => ?_
    simp [Out.bind_eq_ub, hw _ _ (get_mut_holds hp), hr _ (get_mut_holds hp)]
  | update1d k f =>
    refine (m1 k).done fun p hp => ?_
    simp [Out.bind_eq_ub, hw _ _ (get1d_mut_holds hp), hr _ (get1d_mut_holds hp)]

/-- One operation of a program, in any state: undefined exactly if it is a culprit. -/
theorem exec_ub_iff (kern : Kern α) {s : St α} (hi : Windows s) (op : Op α) :
    op.exec cfg kern s = .ub ↔ Culprit cfg s op := by
  cases op with
  | zeros k r c =>
    exact noAccess_iff (by simp [Op.exec, Out.bind_eq_ub, zeros_ne_ub]) rfl id
  | rowZeros n =>
    exact noAccess_iff (by simp [Op.exec, RowVectorD.zeros_from_length, Out.bind_eq_ub,
      newVector_ne_ub, from_data_ne_ub]) rfl id
  | rowZerosDim r c =>
    exact noAccess_iff (by simp [Op.exec, RowVectorD.zeros_from_dim, Out.bind_eq_ub,
      newVector_ne_ub, from_data_ne_ub]) rfl id
  | colZeros n =>
    exact noAccess_iff (by simp [Op.exec, ColumnVectorD.zeros_from_length, Out.bind_eq_ub,
      newVector_ne_ub, from_data_ne_ub]) rfl id
  | colZerosDim r c =>
    exact noAccess_iff (by simp [Op.exec, ColumnVectorD.zeros_from_dim, Out.bind_eq_ub,
      newVector_ne_ub, from_data_ne_ub]) rfl id
  | fixedZeros rs cs k =>
    refine noAccess_iff ?_ rfl id
    simp only [Op.exec]
    split
    · simp [fixed_zeros_from_dim, Out.bind_eq_ub, from_dimension_ne_ub, from_data_ne_ub]
    · simp
  | fixedVector rs cs k n =>
    refine noAccess_iff ?_ rfl id
    simp only [Op.exec]
    split
    · unfold withSome
      split
      · simp [fixed_zeros_from_length, Out.bind_eq_ub, from_data_ne_ub]
      · simp
    · simp
  | fromSlice rs cs xs l =>
    exact noAccess_iff (by simp [Op.exec, Out.bind_eq_ub, newSlice_ne_ub, from_data_ne_ub]) rfl id
  | fromVector rs cs n l =>
    exact noAccess_iff (by simp [Op.exec, Out.bind_eq_ub, newVector_ne_ub, from_data_ne_ub]) rfl id
  | element k op =>
    refine ubIf_iff ?_ id
    simp only [Op.exec, accesses]
    cases hb : s.base? k with
    | none => exact .panic
    | some b =>
      have := (exec_ubIf (cfg := cfg) (hi.base hb) op).done
        (f := fun x => (.ok (x.1.obs, ⟨x.2, s.mats⟩) : Out (Obs α × St α))) (by simp)
      cases op <;> exact this
  | get k r c =>
    refine ubIf_iff ?_ id
    simp only [Op.exec, accesses]
    cases hm : s.mats[k]? with
    | none => exact .panic
    | some m => exact (UbIf.checked2d (tracks_at2d m (hi.mat hm))).done (by simp)
  | get1d k n =>
    refine ubIf_iff ?_ id
    simp only [Op.exec, accesses]
    cases hm : s.mats[k]? with
    | none => exact .panic
    | some m => exact (UbIf.checked1d (tracks_at1d m (hi.mat hm))).done (by simp)
  | forEach k f =>
    refine ubIf_iff ?_ id
    simp only [Op.exec, accesses]
    cases hb : s.base? k with
    | none => exact .panic
    | some b => exact (ubIf_for_each (hi.base hb) _ _).done (by simp)
  | fillRand k draw =>
    refine ubIf_iff ?_ id
    simp only [Op.exec, accesses]
    cases hb : s.base? k with
    | none => exact .panic
    | some b => exact (ubIf_for_each (hi.base hb) _ _).done (by simp)
  | readSlice k first last =>
    refine noAccess_iff ?_ rfl id
    simp only [Op.exec]
    cases hb : s.base? k with
    | none => simp [withSome]
    | some b =>
      intro h
      simp only [withSome, Out.bind_eq_ub, Out.pure_eq, reduceCtorEq, and_false, exists_false,
        or_false] at h
      rcases h with h | ⟨w, hw, h⟩
      · exact get_slice_ne_ub h
      · have h1 := get_slice_ok_window hw
        have h2 := hi.base hb
        unfold InMem at h2
        exact toList_ne_ub (by rw [h1.1]; omega) h
  | writeSlice k first last xs =>
    refine noAccess_iff ?_ rfl id
    simp only [Op.exec]
    cases hb : s.base? k with
    | none => simp [withSome]
    | some b =>
      intro h
      simp only [withSome, Out.bind_eq_ub, Out.pure_eq, reduceCtorEq, and_false, exists_false,
        or_false] at h
      rcases h with h | ⟨w, hw, h⟩
      · exact get_slice_mut_ne_ub h
      · have h1 := get_slice_mut_window hw
        have h2 := hi.base hb
        unfold InMem at h2
        exact writeList_ne_ub (by rw [h1.1]; omega) h
  | block k tl d =>
    refine ubIf_iff ?_ id
    simp only [Op.exec, accesses]
    cases hb : s.base? k with
    | none => exact .panic
    | some b =>
      simp only [withSome]
      by_cases hB : hasBlock b = true
      · rw [if_pos hB, if_pos hB]
        exact (ubIf_block hB tl d).done (by simp)
      · rw [if_neg hB, if_neg hB]
        exact .panic
  | split k p =>
    refine ubIf_iff ?_ id
    simp only [Op.exec, accesses]
    cases hb : s.base? k with
    | none => exact .panic
    | some b =>
      simp only [withSome]
      by_cases hB : hasSplit b = true
      · rw [if_pos hB, if_pos hB]
        exact (ubIf_split hB p).done (by simp)
      · rw [if_neg hB, if_neg hB]
        exact .panic
  | ref k =>
    refine noAccess_iff ?_ rfl id
    simp only [Op.exec]
    cases s.mats[k]? <;> simp [withSome]
  | add rl rr k1 k2 =>
    refine noAccess_iff ?_ rfl id
    simp only [Op.exec]
    cases s.mats[k1]? with
    | none => simp [withSome]
    | some a =>
      cases s.mats[k2]? with
      | none => simp [withSome]
      | some b =>
        simp only [withSome]
        split
        · cases rl <;> cases rr <;>
            simp [Out.bind_eq_ub, Mat.add_vv, Mat.add_vr, Mat.add_rv, Mat.add_rr, Mat.addition_new]
        · simp
  | scale sf br x k =>
    refine noAccess_iff ?_ rfl id
    simp only [Op.exec]
    cases s.mats[k]? <;> simp [withSome]
  | eval k =>
    refine ubIf_iff ?_ id
    simp only [Op.exec, accesses]
    cases hm : s.mats[k]? with
    | none => exact .panic
    | some m =>
      simp only [withSome]
      by_cases hd : m.sizes = (.dynamic, .dynamic)
      · rw [if_pos hd, if_pos hd]
        exact (ubIf_eval (hi.mat hm)).done (by simp)
      · rw [if_neg hd, if_neg hd]
        exact .panic
  | matmul alpha a b beta c =>
    simp only [Op.exec, Culprit, accesses, leaves_nil, false_or, BadProduct]
    cases ha : s.base? a with
    | none => simp [withSome]
    | some ma =>
    cases hb : s.base? b with
    | none => simp [withSome]
    | some mb =>
    cases hc : s.base? c with
    | none => simp [withSome]
    | some mc =>
    simp only [withSome, Option.some.injEq, exists_eq_left', exists_and_left]
    by_cases him : matmulImpl ma mb mc = true
    · rw [if_pos him]
      simp [him, Out.bind_eq_ub, matmul_ub (hi.base ha) (hi.base hb) (hi.base hc)]
    · rw [if_neg him]
      simp [him]
  | dot a b =>
    simp only [Op.exec, Culprit, accesses, leaves_nil, false_or, BadProduct]
    cases ha : s.base? a with
    | none => simp [withSome]
    | some ma =>
    cases hb : s.base? b with
    | none => simp [withSome]
    | some mb =>
    simp only [withSome, Option.some.injEq, exists_eq_left', exists_and_left]
    cases hd : dotImpl ma mb with
    | none => simp
    | some i => simp [Out.bind_eq_ub, dot_ub (hi.base ha) (hi.base hb)]

/-! ## The containers stay in memory -/

omit [Zero α] [One α] [Add α] [Mul α] in
theorem from_pointer_strided_in {p : Ptr} {d : Nat × Nat} {l : Layout} {v : BaseMatrix} {mem : Mem α}
    (h : from_pointer_strided cfg p d l = .ok v) (hp : p.prov.off + p.prov.len ≤ mem.size p.prov.buf) :
    InMem v mem := by
  simp only [from_pointer_strided, Out.bind_eq_ok] at h
  obtain ⟨_, _, _, _, _, _, _, _, c, hc, h⟩ := h
  unfold InMem
  rw [from_data_data h]
  unfold Ptr.from_raw_parts at hc
  split at hc
  · cases hc
    simp only
    omega
  · cases hc

omit [Zero α] [One α] [Add α] [Mul α] in
theorem block_in {b v : BaseMatrix} {tl d : Nat × Nat} {mem : Mem α} (hb : InMem b mem)
    (h : b.block cfg tl d = .ok v) : InMem v mem := by
  simp only [BaseMatrix.block, Out.bind_eq_ok] at h
  obtain ⟨_, _, _, _, _, _, i, _, p, hp, st, _, h⟩ := h
  unfold Ptr.add at hp
  split at hp
  · cases hp
    split at h
    · exact from_pointer_strided_in h hb
    · cases h
  · cases hp

omit [Zero α] [One α] [Add α] [Mul α] in
theorem split_in {b : BaseMatrix} {p : Nat × Nat} {mem : Mem α} (hb : InMem b mem)
    {q : BaseMatrix × BaseMatrix × BaseMatrix × BaseMatrix}
    (h : b.split_in_four_mut cfg p = .ok q) (k : Fin 4) : InMem (quad q k) mem := by
  have hoff : ∀ (i : Int) (x : Ptr), b.get_pointer.offset i = .ok x → x.prov = b.data := by
    intro i x hx
    unfold Ptr.offset at hx
    split at hx
    · cases hx; rfl
    · cases hx
  unfold BaseMatrix.split_in_four_mut at h
  split at h
  · simp only [Out.bind_eq_ok, Out.pure_eq] at h
    obtain ⟨_, _, _, _, _, _, _, _, _, _, _, _, _, _, _, _, _, _, p0, h0, b0, g0, p1, h1, b1, g1,
      p2, h2, b2, g2, p3, h3, b3, g3, h⟩ := h
    cases h
    have := from_pointer_strided_in g0 (mem := mem) (by rw [hoff _ _ h0]; exact hb)
    have := from_pointer_strided_in g1 (mem := mem) (by rw [hoff _ _ h1]; exact hb)
    have := from_pointer_strided_in g2 (mem := mem) (by rw [hoff _ _ h2]; exact hb)
    have := from_pointer_strided_in g3 (mem := mem) (by rw [hoff _ _ h3]; exact hb)
    match k with
    | 0 => assumption
    | 1 => assumption
    | 2 => assumption
    | 3 => assumption
  · cases h

theorem Windows.step (kern : Kern α) {s s' : St α} {op : Op α} {o : Obs α} (hi : Windows s)
    (h : op.step cfg kern s = some (o, s')) : Windows s' := by
  obtain ⟨⟨new, hnew, hlen⟩, hbufs, hfresh, hsize, -⟩ := C73_operation cfg kern s s' op o h
  have hold : ∀ b, InMem b s.mem → InMem b s'.mem := by
    intro b hb
    by_cases hlt : b.data.buf < s.mem.bufs.length
    · exact hb.size (hsize _ hlt)
    · have : s.mem.size b.data.buf = 0 := by
        simp [Mem.size, List.getElem?_eq_none (Nat.le_of_not_lt hlt)]
      unfold InMem at *
      omega
  have hadd : (∀ m ∈ new, ∀ b ∈ parts m, InMem b s'.mem) → Windows s' := by
    intro hn m hm b hb
    rw [hnew, List.mem_append] at hm
    rcases hm with hm | hm
    · exact hold b (hi m hm b hb)
    · exact hn m hm b hb
  have hnil : op.created o = 0 → Windows s' := by
    intro h0
    rw [h0, List.length_eq_zero_iff] at hlen
    exact hadd (by simp [hlen])
  have hown : op.owns = true → Windows s' := by
    intro ho
    cases o with
    | panicked => exact hnil rfl
    | _ =>
      obtain ⟨b, hb, hd⟩ := hfresh (by simp [Op.allocations, ho])
      refine hadd fun m hm b' hb' => ?_
      rw [hnew, List.append_cancel_left_eq] at hb
      obtain rfl : m = .base b := by simpa [hb] using hm
      obtain rfl : b' = b := by simpa [parts] using hb'
      unfold InMem
      rw [hd]; simp
  have hview : ∀ ms : List (Mat α), op.exec cfg kern s = .ok (.done, ⟨s.mem, s.mats ++ ms⟩) →
      (∀ m ∈ ms, ∀ b ∈ parts m, InMem b s.mem) → Windows s' := by
    intro ms he hms
    simp only [Op.step, he, Option.some.injEq, Prod.mk.injEq] at h
    obtain ⟨-, rfl⟩ := h
    simp only [List.append_cancel_left_eq] at hnew
    subst hnew
    exact hadd hms
  have hpanic : op.exec cfg kern s = .panic → Windows s' := by
    intro he
    simp only [Op.step, he, Option.some.injEq, Prod.mk.injEq] at h
    obtain ⟨rfl, rfl⟩ := h
    exact hi
  have hub : op.exec cfg kern s ≠ .ub := by
    intro he
    simp [Op.step, he] at h
  cases op with
  | block k tl d =>
    simp only [Op.exec] at hview hpanic hub
    cases hb : s.base? k with
    | none => rw [hb] at hpanic; exact hpanic rfl
    | some b =>
      simp only [hb, withSome] at hview hpanic hub
      by_cases hB : hasBlock b = true
      · simp only [if_pos hB] at hview hpanic hub
        cases hv : b.block cfg tl d with
        | ub => rw [hv] at hub; exact absurd rfl hub
        | panic => rw [hv] at hpanic; exact hpanic rfl
        | ok v =>
          refine hview [.base v] (by rw [hv]; rfl) fun m hm b' hb' => ?_
          obtain rfl : m = .base v := by simpa using hm
          obtain rfl : b' = v := by simpa [parts] using hb'
          exact block_in (hi.base hb) hv
      · simp only [if_neg hB] at hpanic
        exact hpanic trivial
  | split k p =>
    simp only [Op.exec] at hview hpanic hub
    cases hb : s.base? k with
    | none => rw [hb] at hpanic; exact hpanic rfl
    | some b =>
      simp only [hb, withSome] at hview hpanic hub
      by_cases hB : hasSplit b = true
      · simp only [if_pos hB] at hview hpanic hub
        cases hv : b.split_in_four_mut cfg p with
        | ub => rw [hv] at hub; exact absurd rfl hub
        | panic => rw [hv] at hpanic; exact hpanic rfl
        | ok q =>
          refine hview _ (by rw [hv]; rfl) fun m hm b' hb' => ?_
          obtain ⟨j, -, rfl⟩ := List.mem_map.1 hm
          obtain rfl : b' = quad q j := by simpa [parts] using hb'
          exact split_in (hi.base hb) hv j
      · simp only [if_neg hB] at hpanic
        exact hpanic trivial
  | ref k =>
    simp only [Op.exec] at hview hpanic
    cases hm : s.mats[k]? with
    | none => rw [hm] at hpanic; exact hpanic rfl
    | some m =>
      refine hview [m.from_ref] (by rw [hm]; rfl) fun m' hm' b hb => ?_
      obtain rfl : m' = m.from_ref := by simpa using hm'
      exact hi.mat hm b hb
  | add rl rr k1 k2 =>
    simp only [Op.exec] at hview hpanic
    cases ha : s.mats[k1]? with
    | none => rw [ha] at hpanic; exact hpanic rfl
    | some a =>
    cases hb : s.mats[k2]? with
    | none => rw [ha, hb] at hpanic; exact hpanic rfl
    | some b =>
      simp only [ha, hb, withSome] at hview hpanic
      by_cases hk : a.layout.indexKind = b.layout.indexKind ∧ a.sizes = b.sizes
      · simp only [if_pos hk] at hview hpanic
        by_cases hd : a.layout.dim = b.layout.dim
        · have hp : ∀ (x y : Mat α) (l : Layout), parts x = parts a → parts y = parts b →
              ∀ m ∈ [Mat.addition x y l], ∀ b' ∈ parts m, InMem b' s.mem := by
            intro x y l hx hy m hm b' hb'
            obtain rfl : m = .addition x y l := by simpa using hm
            simp only [parts, hx, hy, List.mem_append] at hb'
            rcases hb' with hb' | hb'
            · exact hi.mat ha b' hb'
            · exact hi.mat hb b' hb'
          cases rl <;> cases rr
          · exact hview _ (by simp only [Mat.add_vv, Mat.addition_new, Out.assert_pos hd]; rfl)
              (hp a b _ rfl rfl)
          · exact hview _ (by
              simp only [Mat.add_vr, Mat.addition_new, Mat.from_ref, Mat.layout,
                Out.assert_pos hd]; rfl) (hp a (.ref b) _ rfl rfl)
          · exact hview _ (by
              simp only [Mat.add_rv, Mat.addition_new, Mat.from_ref, Mat.layout,
                Out.assert_pos hd]; rfl) (hp (.ref a) b _ rfl rfl)
          · exact hview _ (by
              simp only [Mat.add_rr, Mat.addition_new, Mat.from_ref, Mat.layout,
                Out.assert_pos hd]; rfl) (hp (.ref a) (.ref b) _ rfl rfl)
        · refine hpanic ?_
          cases rl <;> cases rr <;>
            simp [Mat.add_vv, Mat.add_vr, Mat.add_rv, Mat.add_rr, Mat.addition_new, Mat.from_ref,
              Mat.layout, Out.assert_neg hd]
      · simp only [if_neg hk] at hpanic
        exact hpanic trivial
  | scale sf br x k =>
    simp only [Op.exec] at hview hpanic
    cases hm : s.mats[k]? with
    | none => rw [hm] at hpanic; exact hpanic rfl
    | some m =>
      simp only [hm, withSome] at hview
      refine hview _ rfl fun m' hm' b hb => ?_
      obtain rfl := by simpa using hm'
      cases sf <;> cases br <;> exact hi.mat hm b hb
  | zeros _ _ _ => exact hown rfl
  | rowZeros _ => exact hown rfl
  | rowZerosDim _ _ => exact hown rfl
  | colZeros _ => exact hown rfl
  | colZerosDim _ _ => exact hown rfl
  | fixedZeros _ _ _ => exact hown rfl
  | fixedVector _ _ _ _ => exact hown rfl
  | fromSlice _ _ _ _ => exact hown rfl
  | fromVector _ _ _ _ => exact hown rfl
  | eval _ => exact hown rfl
  | dot _ _ => exact hown rfl
  | element _ _ => exact hnil (by cases o <;> rfl)
  | get _ _ _ => exact hnil (by cases o <;> rfl)
  | get1d _ _ => exact hnil (by cases o <;> rfl)
  | forEach _ _ => exact hnil (by cases o <;> rfl)
  | fillRand _ _ => exact hnil (by cases o <;> rfl)
  | readSlice _ _ _ => exact hnil (by cases o <;> rfl)
  | writeSlice _ _ _ _ => exact hnil (by cases o <;> rfl)
  | matmul _ _ _ _ _ => exact hnil (by cases o <;> rfl)

theorem run_culprit (kern : Kern α) {s : St α} (hi : Windows s) (ops : List (Op α)) :
    (runProgram cfg kern s ops = none ↔
      ∃ pre op post os s', ops = pre ++ op :: post ∧ runProgram cfg kern s pre = some (os, s') ∧
        Culprit cfg s' op) ∧
    ∀ os s', runProgram cfg kern s ops = some (os, s') → Windows s' := by
  induction ops generalizing s with
  | nil =>
    refine ⟨⟨fun h => by simp [runProgram] at h, ?_⟩, ?_⟩
    · rintro ⟨pre, op, post, os, s', h, -⟩
      simp at h
    · intro os s' he
      simp only [runProgram, Option.some.injEq, Prod.mk.injEq] at he
      obtain ⟨rfl, rfl⟩ := he
      exact hi
  | cons op ops ih =>
    have hub := exec_ub_iff (cfg := cfg) kern hi op
    cases he : op.step cfg kern s with
    | none =>
      have hx : op.exec cfg kern s = .ub := by
        unfold Op.step at he
        cases hx : op.exec cfg kern s <;> simp [hx] at he
        rfl
      have hn : ∀ x, runProgram cfg kern s (op :: x) = none := by
        intro x; simp [runProgram, he]
      rw [hn]
      exact ⟨⟨fun _ => ⟨[], op, ops, [], s, rfl, rfl, hub.1 hx⟩, fun _ => rfl⟩,
        fun _ _ h => by simp at h⟩
    | some x =>
      obtain ⟨o, s1⟩ := x
      have hnc : ¬ Culprit cfg s op := by
        intro hc
        simp [Op.step, hub.2 hc] at he
      obtain ⟨ih1, ih2⟩ := ih (hi.step kern he)
      have hrun : ∀ x, runProgram cfg kern s (op :: x) =
          (runProgram cfg kern s1 x).bind fun y => some (o :: y.1, y.2) := by
        intro x
        simp only [runProgram, he, Option.bind_eq_bind, Option.bind_some]
        rfl
      constructor
      · rw [hrun, Option.bind_eq_none_iff]
        constructor
        · intro hn
          have hn' : runProgram cfg kern s1 ops = none := by
            cases hx : runProgram cfg kern s1 ops with
            | none => rfl
            | some y => simpa using hn y hx
          obtain ⟨pre, op', post, os, s', h3, h4, h5⟩ := ih1.1 hn'
          exact ⟨op :: pre, op', post, o :: os, s', by rw [h3]; rfl, by rw [hrun, h4]; rfl, h5⟩
        · rintro ⟨pre, op', post, os, s', h3, h4, h5⟩
          cases pre with
          | nil =>
            obtain ⟨rfl, -⟩ := List.cons.inj h3
            simp only [runProgram, Option.some.injEq, Prod.mk.injEq] at h4
            obtain ⟨-, rfl⟩ := h4
            exact absurd h5 hnc
          | cons op0 pre =>
            obtain ⟨rfl, h3'⟩ := List.cons.inj h3
            rw [hrun] at h4
            obtain ⟨y, h6, h7⟩ := Option.bind_eq_some_iff.1 h4
            simp only [Option.some.injEq, Prod.mk.injEq] at h7
            have hn' := ih1.2 ⟨pre, op', post, y.1, y.2, h3', h6, by rw [h7.2]; exact h5⟩
            intro z hz
            rw [hn'] at hz; simp at hz
      · intro os s' hr
        rw [hrun] at hr
        obtain ⟨y, h6, h7⟩ := Option.bind_eq_some_iff.1 hr
        simp only [Option.some.injEq, Prod.mk.injEq] at h7
        rw [← h7.2]
        exact ih2 y.1 y.2 h6

/-- **C85.** Whatever the build mode, the target, the scalar type, the layouts, the strides and the
sizes: a program of safe operations, however long, gets to undefined behaviour exactly if one of its
operations, in the state that the operations before it have led to, is a culprit: the first of its
unchecked accesses that does not succeed leaves its container, or it calls the kernel of the matrix
product and breaks its contract. -/
theorem C85_exact (cfg : Cfg) (kern : Kern α) (ops : List (Op α)) :
    runProgram cfg kern St.init ops = none ↔
      ∃ pre op post os s, ops = pre ++ op :: post ∧
        runProgram cfg kern St.init pre = some (os, s) ∧ Culprit cfg s op :=
  (run_culprit kern (fun m hm => by simp [St.init] at hm) ops).1

/-- **C85**, consequence: in no build can making matrices and vectors, wrapping slices with whatever
layout, borrowing, adding, scaling, or reading and writing slices be undefined, in any state that a
program can reach; they finish or panic. -/
theorem C85_harmless (cfg : Cfg) (kern : Kern α) (ops : List (Op α)) (os : List (Obs α)) (s : St α)
    (h : runProgram cfg kern St.init ops = some (os, s)) (op : Op α)
    (hop : match op with
      | .element .. | .get .. | .get1d .. | .forEach .. | .fillRand .. | .block .. | .split ..
      | .eval .. | .matmul .. | .dot .. => False
      | _ => True) :
    op.exec cfg kern s ≠ .ub := by
  have hi := (run_culprit (cfg := cfg) kern (s := St.init) (fun m hm => by simp [St.init] at hm)
    ops).2 os s h
  rw [ne_eq, exec_ub_iff kern hi]
  rintro (hc | hc)
  · cases op <;> first | exact leaves_nil hc | exact hop
  · cases op <;> first | exact hc | exact hop

end Steps

end Any

/-- Strides that lead out of the container: `from_data` accepts them, reading element `(1, 0)` is
fine, and reading element `(1, 1)` is undefined. -/
def stridesAway : List (Op Int) :=
  [.fromSlice .dynamic .dynamic [1, 2, 3, 4] (.asRowMajor ⟨(2, 2), (3, 2)⟩), .get 0 1 0, .get 0 1 1]

/-- A contiguous layout whose number of elements, `2^64`, wraps around to 0 in a release build: an
empty slice is enough for it. -/
def wrappedSize : List (Op Int) :=
  [.fromSlice .dynamic .dynamic [] (.rowMajor ⟨(9223372036854775808, 2)⟩), .get 0 0 0]

example : runProgram dbg exactKern St.init stridesAway = none ∧
    (runProgram dbg exactKern St.init (stridesAway.take 2)).map (·.1) = some [.done, .value 4] ∧
    runProgram rel exactKern St.init stridesAway = none ∧
    runProgram rel exactKern St.init wrappedSize = none ∧
    (runProgram dbg exactKern St.init wrappedSize).map (·.1) = some [.panicked, .panicked] := by decide

/-- The culprit of the first program, found by the definition: the accesses of `get(1, 1)`. -/
example : accesses dbg (⟨⟨[[1, 2, 3, 4]]⟩, [.base ⟨⟨0, 0, 4⟩, .asRowMajor ⟨(2, 2), (3, 2)⟩, .dynamic,
      .dynamic⟩]⟩ : St Int) (.get 0 1 1) = [⟨⟨0, 0, 4⟩, .ok 5, .ok 1, fun _ => True⟩] ∧
    LeavesContainer [⟨⟨0, 0, 4⟩, .ok 5, .ok 1, fun _ => True⟩] :=
  ⟨rfl, leaves_cons.2 (.inl ⟨5, rfl, .inl (.inr (by decide))⟩)⟩

/-- A split that fits, and a product of its parts that breaks the contract (C47). -/
example : ∃ ops : List (Op Int), runProgram rel exactKern St.init ops = none ∧
    (runProgram rel exactKern St.init ops.dropLast).map (·.1) = some [.done, .done] :=
  ⟨[.zeros .rowMajor 4 4, .split 0 (2, 2), .matmul 1 1 4 0 2], by decide⟩

end Householder.Props
