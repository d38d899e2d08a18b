import Verif.Lemmas.TraitsExact
import Verif.Props.Traits

/-!
# Exactly which implementations of the open traits are undefined, and when (C74)
-/

namespace Householder.Props

open Spec

variable {α V D X : Type}

/-- **C74, exactly**: reads, for any implementations whatever of layouts, containers and matrices. A
safe read is undefined exactly if the answer about the shape is, or the position is inside the shape
and, of the answers of the matrices read in order, the first that is not a value is undefined. -/
theorem C74_exact_reads [Add α] [Mul α] (I : Impls α V D X) (mem : Mem α) (m : AnyMat α V D X)
    (r c i : Nat) :
    (m.get I mem r c = .ub ↔ I.lay.dim (m.layout I) = .ub ∨
      ∃ d, I.lay.dim (m.layout I) = .ok d ∧ r < d.1 ∧ c < d.2 ∧
        Faulty ((sources m).map (ask2d I mem r c))) ∧
    (m.get1d I mem i = .ub ↔ I.lay.number_of_elements (m.layout I) = .ub ∨
      ∃ n, I.lay.number_of_elements (m.layout I) = .ok n ∧ i < n ∧
        Faulty ((sources m).map (ask1d I mem i))) :=
  ⟨ub_dimension (needs2d I mem r c m).ub, ub_number (needs1d I mem i m).ub⟩

/-- **C74, exactly**: expressions of matrices with any layout whose functions return or panic, over
the containers of the crate. Reads, mutable access, `for_each` and evaluation are undefined exactly
if the first conversion that does not give a cell of its container gives a raw index past the end.
For evaluation these are, element by element, the conversions of the operands and then the conversion
of the result's layout, whose container has as many elements as the new layout says. -/
theorem C74_exact [Target] [Zero α] [Add α] [Mul α] {σ : Type} (L : LayoutImpl V) (hL : SafeLayout L)
    (cfg : Cfg) (mem : Mem α) (m : AnyMat α V Container Empty) (b : AnyBase V Container)
    (hm : ∀ x ∈ origins m, x.data.off + x.data.len ≤ mem.size x.data.buf)
    (hb : b.data.off + b.data.len ≤ mem.size b.data.buf) (r c i : Nat) (f : σ → α → σ × α) (s : σ) :
    let I := overCrate L α
    (m.get I mem r c = .ub ↔ ∃ d, L.dim (m.layout I) = .ok d ∧ r < d.1 ∧ c < d.2 ∧
      LeavesContainer (reach2d L m r c)) ∧
    (m.get1d I mem i = .ub ↔ ∃ n, L.number_of_elements (m.layout I) = .ok n ∧ i < n ∧
      LeavesContainer (reach1d L m i)) ∧
    (b.get_mut I r c = .ub ↔ ∃ d, L.dim b.layout = .ok d ∧ r < d.1 ∧ c < d.2 ∧
      ∃ k, L.convert_2d_raw b.layout r c = .ok k ∧ b.data.len ≤ k) ∧
    (b.get1d_mut I i = .ub ↔ ∃ n, L.number_of_elements b.layout = .ok n ∧ i < n ∧
      ∃ k, L.convert_1d_raw b.layout i = .ok k ∧ b.data.len ≤ k) ∧
    (b.for_each I f s mem = .ub ↔ ∃ n, L.number_of_elements b.layout = .ok n ∧
      LeavesContainer ((List.range n).map fun i => oneCell b.data (L.convert_1d_raw b.layout i))) ∧
    (m.eval I cfg mem = .ub ↔ LeavesContainer (evalReach L cfg m (m.layout I) mem)) := by
  refine ⟨?_, ?_, ?_, ?_, ?_, ?_⟩
  · exact (ub_dimension (tracks_reach2d hL m hm).ub).trans (or_iff_right (hL.dim _))
  · exact (ub_number (tracks_reach1d hL m hm).ub).trans (or_iff_right (hL.number_of_elements _))
  · exact (ub_dimension ((tracks_place2d hL b r c).ub.trans leaves_cell)).trans
      (or_iff_right (hL.dim _))
  · exact (ub_number ((tracks_place1d hL b i).ub.trans leaves_cell)).trans
      (or_iff_right (hL.number_of_elements _))
  · refine (ubIf_any_for_each hL hb f s).trans ?_
    cases hn : L.number_of_elements b.layout with
    | ub => exact absurd hn (hL.number_of_elements _)
    | panic => simp [whenOk, leaves_nil]
    | ok n =>
      have : ∀ xs : List Nat, xs.flatMap (reach1d L (.base b : AnyMat α V Container Empty)) =
          xs.map fun i => oneCell b.data (L.convert_1d_raw b.layout i) := by
        intro xs
        induction xs with
        | nil => rfl
        | cons x xs ih => rw [List.flatMap_cons, ih]; rfl
      simp [whenOk, this]
  · exact ubIf_any_eval hL cfg hm

/-- **C74, exactly**: the part of the contract that is about positions (`Addresses`) asks for neither
too little nor too much. Over a container of the crate, all safe reads of a matrix are defined if and
only if its layout addresses only the elements of the container; and so for mutable access. -/
theorem C74_contract [Add α] [Mul α] (L : LayoutImpl V) (hL : SafeLayout L) (mem : Mem α)
    (b : AnyBase V Container) (hb : b.data.off + b.data.len ≤ mem.size b.data.buf) :
    let I := overCrate L α
    ((∀ r c, (AnyMat.base b).get I mem r c ≠ .ub) ∧ (∀ i, (AnyMat.base b).get1d I mem i ≠ .ub) ↔
      Addresses L b.layout b.data.len) ∧
    ((∀ r c, b.get_mut I r c ≠ .ub) ∧ (∀ i, b.get1d_mut I i ≠ .ub) ↔
      Addresses L b.layout b.data.len) := by
  have two : ∀ r c, L.convert_2d_raw b.layout r c = .panic ∨
      ∃ k, L.convert_2d_raw b.layout r c = .ok k := by
    intro r c
    cases h : L.convert_2d_raw b.layout r c with
    | ub => exact absurd h (hL.convert_2d_raw _ _ _)
    | panic => simp
    | ok k => simp
  have one : ∀ i, L.convert_1d_raw b.layout i = .panic ∨
      ∃ k, L.convert_1d_raw b.layout i = .ok k := by
    intro i
    cases h : L.convert_1d_raw b.layout i with
    | ub => exact absurd h (hL.convert_1d_raw _ _)
    | panic => simp
    | ok k => simp
  have key : (∀ r c, ¬ ∃ d, L.dim b.layout = .ok d ∧ r < d.1 ∧ c < d.2 ∧
      ∃ k, L.convert_2d_raw b.layout r c = .ok k ∧ b.data.len ≤ k) ∧
      (∀ i, ¬ ∃ n, L.number_of_elements b.layout = .ok n ∧ i < n ∧
      ∃ k, L.convert_1d_raw b.layout i = .ok k ∧ b.data.len ≤ k) ↔
      Addresses L b.layout b.data.len := by
    constructor
    · rintro ⟨h2, h1⟩
      constructor
      · cases hd : L.dim b.layout with
        | ub => exact absurd hd (hL.dim _)
        | panic => exact .inl rfl
        | ok d =>
          refine .inr ⟨d, rfl, fun r c hr hc => ?_⟩
          rcases two r c with h | ⟨k, h⟩
          · exact .inl h
          · exact .inr ⟨k, h, Nat.lt_of_not_le fun hk => h2 r c ⟨d, hd, hr, hc, k, h, hk⟩⟩
      · cases hn : L.number_of_elements b.layout with
        | ub => exact absurd hn (hL.number_of_elements _)
        | panic => exact .inl rfl
        | ok n =>
          refine .inr ⟨n, rfl, fun i hi => ?_⟩
          rcases one i with h | ⟨k, h⟩
          · exact .inl h
          · exact .inr ⟨k, h, Nat.lt_of_not_le fun hk => h1 i ⟨n, hn, hi, k, h, hk⟩⟩
    · rintro ⟨h2, h1⟩
      refine ⟨?_, ?_⟩
      · rintro r c ⟨d, hd, hr, hc, k, hk, hlt⟩
        rcases h2 with h | ⟨d', h, h2⟩
        · simp [h] at hd
        · obtain rfl : d' = d := by simpa [h] using hd
          rcases h2 r c hr hc with h | ⟨k', h, hk'⟩
          · simp [h] at hk
          · obtain rfl : k' = k := by simpa [h] using hk
            omega
      · rintro i ⟨n, hn, hi, k, hk, hlt⟩
        rcases h1 with h | ⟨n', h, h1⟩
        · simp [h] at hn
        · obtain rfl : n' = n := by simpa [h] using hn
          rcases h1 i hi with h | ⟨k', h, hk'⟩
          · simp [h] at hk
          · obtain rfl : k' = k := by simpa [h] using hk
            omega
  have hin : ∀ x ∈ origins (.base b : AnyMat α V Container Empty), Backed x.data mem := by
    intro x hx
    obtain rfl : x = b := by simpa [origins_base] using hx
    exact hb
  constructor
  · refine Iff.trans (and_congr (forall_congr' fun r => forall_congr' fun c => not_congr ?_)
      (forall_congr' fun i => not_congr ?_)) key
    · exact (ub_dimension ((tracks_reach2d hL _ hin).ub.trans leaves_cell)).trans
        (or_iff_right (hL.dim _))
    · exact (ub_number ((tracks_reach1d hL _ hin).ub.trans leaves_cell)).trans
        (or_iff_right (hL.number_of_elements _))
  · refine Iff.trans (and_congr (forall_congr' fun r => forall_congr' fun c => not_congr ?_)
      (forall_congr' fun i => not_congr ?_)) key
    · exact (ub_dimension ((tracks_place2d hL b r c).ub.trans leaves_cell)).trans
        (or_iff_right (hL.dim _))
    · exact (ub_number ((tracks_place1d hL b i).ub.trans leaves_cell)).trans
        (or_iff_right (hL.number_of_elements _))

/-- **C74, exactly**: which layouts are fit to be used. All matrices with a layout that
`Matrix::from_data` accepts, over whatever container of the crate, have defined reads if and only if
the number of elements is not returned, or the layout addresses only that many. -/
theorem C74_fit [Zero α] [Add α] [Mul α] (L : LayoutImpl V) (hL : SafeLayout L) (l : V) :
    (∀ (mem : Mem α) (d : Container) (b : AnyBase V Container),
      d.off + d.len ≤ mem.size d.buf → AnyBase.new (overCrate L α) d l = .ok b →
      (∀ r c, (AnyMat.base b).get (overCrate L α) mem r c ≠ .ub) ∧
      ∀ i, (AnyMat.base b).get1d (overCrate L α) mem i ≠ .ub) ↔
    L.number_of_elements l = .panic ∨ ∃ n, L.number_of_elements l = .ok n ∧ Addresses L l n := by
  constructor
  · intro h
    cases hn : L.number_of_elements l with
    | ub => exact absurd hn (hL.number_of_elements _)
    | panic => exact .inl rfl
    | ok n =>
      refine .inr ⟨n, rfl, ?_⟩
      have := h ⟨[List.replicate n 0]⟩ ⟨0, 0, n⟩ ⟨⟨0, 0, n⟩, l⟩ (by simp [Mem.size])
        (by simp [AnyBase.new, hn, crateContainers, Container.number_of_elements, Out.assert])
      exact (C74_contract L hL ⟨[List.replicate n (0 : α)]⟩ ⟨⟨0, 0, n⟩, l⟩ (by simp [Mem.size])).1.1
        this
  · intro h mem d b hd hnew
    simp only [AnyBase.new, Out.bind_eq_ok, Out.assert_eq_ok, Out.pure_eq] at hnew
    obtain ⟨n, hn, k, hk, -, hle, hb⟩ := hnew
    cases hb
    obtain rfl : d.len = k := by simpa [crateContainers, Container.number_of_elements] using hk
    rcases h with h | ⟨n', h, ha⟩
    · simp [h] at hn
    · obtain rfl : n' = n := by simpa [h] using hn
      refine (C74_contract L hL mem ⟨d, l⟩ hd).1.2 ⟨?_, ?_⟩
      · rcases ha.positions with h | ⟨x, h, hp⟩
        · exact .inl h
        · refine .inr ⟨x, h, fun r c hr hc => ?_⟩
          rcases hp r c hr hc with h | ⟨q, h, hq⟩
          · exact .inl h
          · exact .inr ⟨q, h, hq.trans_le hle⟩
      · rcases ha.indices with h | ⟨x, h, hp⟩
        · exact .inl h
        · refine .inr ⟨x, h, fun i hi => ?_⟩
          rcases hp i hi with h | ⟨q, h, hq⟩
          · exact .inl h
          · exact .inr ⟨q, h, hq.trans_le hle⟩

/-- **C74, exactly**: slices of any container. They are undefined exactly if an answer is, or the
container says it has the elements but its pointer does not lead to them. -/
theorem C74_exact_slices (I : DataImpl α D) (d : D) (first last : Nat) :
    (I.get_slice d first last = .ub ↔
      SliceFaulty (I.number_of_elements d) (I.get_pointer d) first last) ∧
    (I.get_slice_mut d first last = .ub ↔
      SliceFaulty (I.number_of_elements d) (I.get_pointer_mut d) first last) := by
  have key : ∀ (o : Out Ptr), first < last →
      ((o >>= fun p => p.add first >>= fun q => q.from_raw_parts (last - first)) = .ub ↔
        o = .ub ∨ ∃ p, o = .ok p ∧ p.prov.len < p.off + last) := by
    intro o hlt
    rw [Out.bind_eq_ub]
    refine or_congr_right (exists_congr fun p => and_congr_right fun _ => ?_)
    unfold Ptr.add
    by_cases h : p.off + first ≤ p.prov.len
    · rw [if_pos h, Out.bind_ok]
      unfold Ptr.from_raw_parts
      simp only
      split
      · simp; omega
      · simp; omega
    · rw [if_neg h]; simp; omega
  constructor
  · unfold DataImpl.get_slice SliceFaulty
    by_cases hlt : first < last
    · rw [Out.assert_pos hlt, Out.bind_ok, Out.bind_eq_ub]
      simp only [hlt, true_and]
      refine or_congr_right (exists_congr fun n => and_congr_right fun _ => ?_)
      by_cases hn : last ≤ n
      · rw [Out.assert_pos hn, Out.bind_ok, key _ hlt]; simp [hn]
      · rw [Out.assert_neg hn]; simp [hn]
    · rw [Out.assert_neg hlt]; simp [hlt]
  · unfold DataImpl.get_slice_mut SliceFaulty
    by_cases hlt : first < last
    · rw [Out.assert_pos hlt, Out.bind_ok, Out.bind_eq_ub]
      simp only [hlt, true_and]
      refine or_congr_right (exists_congr fun n => and_congr_right fun _ => ?_)
      by_cases hn : last ≤ n
      · rw [Out.assert_pos (show first < n by omega), Out.bind_ok, Out.assert_pos hn, Out.bind_ok,
          key _ hlt]; simp [hn]
      · by_cases hf : first < n
        · rw [Out.assert_pos hf, Out.bind_ok, Out.assert_neg hn]; simp [hn]
        · rw [Out.assert_neg hf]; simp [hn]
    · rw [Out.assert_neg hlt]; simp [hlt]

/-! ## Examples -/

/-- A 2 × 2 layout whose position (1, 1) is at index 7. -/
def strayLayout : (Nat × Nat) × Nat × (Nat → Nat) × Nat := ((2, 2), 4, fun i => if i = 3 then 7 else i, 4)

/-- Over four elements three positions can be read and the fourth cannot; over eight all can. The
layout is not fit, since four elements are accepted. -/
example : let I := overCrate tableLayout Int
    let mem : Mem Int := ⟨[[1, 2, 3, 4], [1, 2, 3, 4, 5, 6, 7, 8]]⟩
    (AnyMat.base ⟨⟨0, 0, 4⟩, strayLayout⟩ : AnyMat Int _ _ Empty).get I mem 1 0 = .ok 3 ∧
    (AnyMat.base ⟨⟨0, 0, 4⟩, strayLayout⟩ : AnyMat Int _ _ Empty).get I mem 1 1 = .ub ∧
    (AnyMat.base ⟨⟨1, 0, 8⟩, strayLayout⟩ : AnyMat Int _ _ Empty).get I mem 1 1 = .ok 8 ∧
    LeavesContainer (reach2d tableLayout
      (.base ⟨⟨0, 0, 4⟩, strayLayout⟩ : AnyMat Int _ _ Empty) 1 1) ∧
    ¬ Addresses tableLayout strayLayout 4 ∧
    ¬ ∃ n, tableLayout.number_of_elements strayLayout = .ok n ∧ Addresses tableLayout strayLayout n := by
  have h4 : ¬ Addresses tableLayout strayLayout 4 := by
    intro h
    have := (C74_contract (α := Int) tableLayout tableLayout_safe ⟨[[1, 2, 3, 4]]⟩
      ⟨⟨0, 0, 4⟩, strayLayout⟩ (by decide)).1.2 h
    exact this.1 1 1 rfl
  refine ⟨rfl, rfl, rfl, ?_, h4, ?_⟩
  · exact leaves_cell.2 ⟨7, rfl, by decide⟩
  · rintro ⟨n, hn, h⟩
    cases hn
    exact h4 h

/-- The sum of a matrix of three elements and one that says it has one: the third element of the sum
is undefined because of the second operand (`C74_false_sum`). -/
example : let I := overCrate tableLayout Int
    let m : AnyMat Int _ Container Empty := .addition (.base ⟨⟨0, 0, 3⟩, ((1, 1), 3, id, 3)⟩)
      (.base ⟨⟨0, 0, 1⟩, ((1, 1), 1, id, 3)⟩) ((1, 1), 3, id, 3)
    (∃ n, tableLayout.number_of_elements (m.layout I) = .ok n ∧ 2 < n ∧
      LeavesContainer (reach1d tableLayout m 2)) ∧
    Faulty ((sources m).map (ask1d I threeMem 2)) ∧ ¬ Faulty ((sources m).map (ask1d I threeMem 0)) ∧
    ∀ cfg : Cfg, m.eval I cfg threeMem = .ub ↔
      LeavesContainer (evalReach tableLayout cfg m (m.layout I) threeMem) := by
  intro I m
  have hm : ∀ x ∈ origins m, x.data.off + x.data.len ≤ threeMem.size x.data.buf := by
    intro x hx
    simp only [m, origins_addition, origins_base, List.mem_append, List.mem_singleton] at hx
    rcases hx with rfl | rfl <;> decide
  have h := fun cfg => C74_exact (σ := Unit) tableLayout tableLayout_safe cfg threeMem m
    ⟨⟨0, 0, 3⟩, ((1, 1), 3, id, 3)⟩ hm (by decide) 0 0 2 (fun s x => (s, x)) ()
  refine ⟨(h dbg).2.1.1 rfl, ?_, ?_, fun cfg => (h cfg).2.2.2.2.2⟩
  · have := (C74_exact_reads I threeMem m 0 0 2).2.1 rfl
    rcases this with h | ⟨n, h1, h2, h3⟩
    · cases h
    · exact h3
  · intro hf
    have := (C74_exact_reads I threeMem m 0 0 0).2.2 (.inr ⟨3, rfl, by decide, hf⟩)
    cases this

/-- The nine layouts of the crate are safe; a 2 × 3 row-major layout is fit. -/
example [Target] (cfg : Cfg) (mem : Mem Int) (d : Container) (b : AnyBase Layout Container)
    (hd : d.off + d.len ≤ mem.size d.buf)
    (hb : AnyBase.new (overCrate (crateLayouts cfg) Int) d (.rowMajor ⟨(2, 3)⟩) = .ok b) :
    ∀ r c, (AnyMat.base b).get (overCrate (crateLayouts cfg) Int) mem r c ≠ .ub := by
  refine ((C74_fit (α := Int) (crateLayouts cfg) (C74_crate_layouts cfg).1 (.rowMajor ⟨(2, 3)⟩)).2
    (.inr ⟨6, ?_, ?_⟩) mem d b hd hb).1
  · exact cfg.mul_ok (by omega_width)
  · refine (C74_crate_matrices cfg (⟨[List.replicate 6 (0 : Int)]⟩) ⟨⟨0, 0, 6⟩, .rowMajor ⟨(2, 3)⟩,
      .dynamic, .dynamic⟩ ⟨⟨by decide_width, by omega_width⟩, fun r c h => ?_, by decide⟩).1
    simp [Stored, Layout.dim, raw] at h ⊢
    omega

/-- The container of one element that says it has ten: slices past the first are undefined. -/
example (first last : Nat) : boastful.get_slice () first last = .ub ↔
    first < last ∧ last ≤ 10 ∧ 1 < last := by
  rw [(C74_exact_slices boastful () first last).1]
  constructor
  · rintro ⟨h1, h | ⟨n, h2, h3, h | ⟨p, h4, h5⟩⟩⟩
    · cases h
    · cases h
    · cases h2; cases h4
      exact ⟨h1, h3, by simpa using h5⟩
  · rintro ⟨h1, h2, h3⟩
    exact ⟨h1, .inr ⟨10, rfl, h2, .inr ⟨_, rfl, by simpa using h3⟩⟩⟩

end Householder.Props
