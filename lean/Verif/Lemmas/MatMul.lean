import Verif.Spec.MatMul
import Verif.Model.MatMul
import Verif.Lemmas.Construct
import Verif.Lemmas.Slices

/-! # Lemmas on matrix products -/

namespace Householder.Spec

variable {α : Type}

/-! ## The kernel -/

/-- What the kernel does, from its preconditions and the values at the addresses it is given. -/
theorem gemm_ok {kern : Kern α} {m k n : Nat} {alpha beta : α} {a b c : Ptr}
    {rsa csa rsb csb rsc csc : Int} {mem : Mem α}
    (hpre : gemmPre m k n a rsa csa b rsb csb c rsc csc) {A B C : Nat → Nat → α}
    (hA : ∀ i l, i < m → l < k → mem.get? (gemmLoc a rsa csa i l) = some (A i l))
    (hB : ∀ l j, l < k → j < n → mem.get? (gemmLoc b rsb csb l j) = some (B l j))
    (hC : ∀ i j, i < m → j < n → mem.get? (gemmLoc c rsc csc i j) = some (C i j)) :
    ∃ mem', gemm kern m k n alpha a rsa csa b rsb csb beta c rsc csc mem = .ok mem' ∧
      (∀ x, mem'.size x = mem.size x) ∧ mem'.bufs.length = mem.bufs.length ∧
      (∀ i j, i < m → j < n → mem'.get? (gemmLoc c rsc csc i j) =
        some (kern ⟨m, n, i, j⟩ alpha ((List.range k).map fun l => (A i l, B l j)) beta (C i j))) ∧
      (∀ q, (∀ i j, i < m → j < n → q ≠ gemmLoc c rsc csc i j) → mem'.get? q = mem.get? q) := by
  have hp := hpre
  obtain ⟨-, -, -, hna, hda, hdb⟩ := hpre
  let Inv : (Nat → Nat → Prop) → Mem α → Prop := fun D mem1 =>
    (∀ x, mem1.size x = mem.size x) ∧ mem1.bufs.length = mem.bufs.length ∧
    (∀ i j, i < m → j < n → D i j → mem1.get? (gemmLoc c rsc csc i j) =
        some (kern ⟨m, n, i, j⟩ alpha ((List.range k).map fun l => (A i l, B l j)) beta (C i j))) ∧
    (∀ i j, i < m → j < n → ¬ D i j → mem1.get? (gemmLoc c rsc csc i j) = some (C i j)) ∧
    (∀ q, (∀ i j, i < m → j < n → q ≠ gemmLoc c rsc csc i j) → mem1.get? q = mem.get? q)
  have hInv0 : Inv (fun r _ => r < 0) mem :=
    ⟨fun _ => rfl, rfl, fun i j _ _ h => absurd h (by omega), fun i j hi hj _ => hC i j hi hj,
      fun _ _ => rfl⟩
  have hcongr : ∀ {D D' : Nat → Nat → Prop} {mem1}, (∀ r s, s < n → (D r s ↔ D' r s)) →
      Inv D mem1 → Inv D' mem1 := by
    rintro D D' mem1 h ⟨h1, h2, h3, h4, h5⟩
    exact ⟨h1, h2, fun i j hi hj hd => h3 i j hi hj ((h i j hj).2 hd),
      fun i j hi hj hd => h4 i j hi hj (fun h' => hd ((h i j hj).1 h')), h5⟩
  unfold gemm
  rw [if_pos hp]
  obtain ⟨mem', e, h1, h2, h3, -, h5⟩ := forRange_inv (n := m) (s := mem)
    (body := fun i mem => forRange n (fun j mem => do
        let ps ← (List.range k).mapM (fun l => do
          let x ← mem.read (gemmLoc a rsa csa i l)
          let y ← mem.read (gemmLoc b rsb csb l j)
          return (x, y))
        let old ← mem.read (gemmLoc c rsc csc i j)
        mem.write (gemmLoc c rsc csc i j) (kern ⟨m, n, i, j⟩ alpha ps beta old)) mem)
    (fun i mem1 => Inv (fun r _ => r < i) mem1) hInv0 (by
      intro i mem1 hi hI
      obtain ⟨mem2, e2, hI2⟩ := forRange_inv (n := n) (s := mem1)
        (body := fun j mem => do
          let ps ← (List.range k).mapM (fun l => do
            let x ← mem.read (gemmLoc a rsa csa i l)
            let y ← mem.read (gemmLoc b rsb csb l j)
            return (x, y))
          let old ← mem.read (gemmLoc c rsc csc i j)
          mem.write (gemmLoc c rsc csc i j) (kern ⟨m, n, i, j⟩ alpha ps beta old))
        (fun j mem1 => Inv (fun r s => r < i ∨ (r = i ∧ s < j)) mem1)
        (hcongr (fun r s _ => by omega) hI) (by
          intro j mem2 hj hI2
          obtain ⟨i1, i2, i3, i4, i5⟩ := hI2
          have hold := i4 i j hi hj (by omega)
          have hps : (List.range k).mapM (fun l => (do
              let x ← mem2.read (gemmLoc a rsa csa i l)
              let y ← mem2.read (gemmLoc b rsb csb l j)
              return (x, y) : Out (α × α))) =
                .ok ((List.range k).map fun l => (A i l, B l j)) := by
            apply mapM_eq_ok
            intro l hl
            have hl : l < k := by simpa using hl
            rw [Mem.read_ok_iff.2 ((i5 _ (fun r s hr hs e => hda r hr s hs i hi l hl e.symm)).trans
                (hA i l hi hl)),
              Mem.read_ok_iff.2 ((i5 _ (fun r s hr hs e => hdb r hr s hs l hl j hj e.symm)).trans
                (hB l j hl hj))]
            rfl
          obtain ⟨mem3, e3, hu⟩ := Mem.write_upd (mem := mem2) (p := gemmLoc c rsc csc i j)
            (v := kern ⟨m, n, i, j⟩ alpha ((List.range k).map fun l => (A i l, B l j)) beta (C i j))
            (Mem.get?_isSome_iff.1 ⟨_, hold⟩)
          refine ⟨mem3, ?_, ?_, ?_, ?_, ?_, ?_⟩
          · simp only [hps, Out.bind_ok, Mem.read_ok_iff.2 hold, e3]
          · intro x; rw [hu.size, i1]
          · rw [hu.nbufs, i2]
          · intro r s hr hs hD
            rw [hu.get]
            by_cases hq : gemmLoc c rsc csc r s = gemmLoc c rsc csc i j
            · obtain ⟨rfl, rfl⟩ := hna r hr s hs i hi j hj hq
              rw [if_pos hq]
            · rw [if_neg hq]
              apply i3 r s hr hs
              by_contra hD'
              have : r = i ∧ s = j := by omega
              obtain ⟨rfl, rfl⟩ := this
              exact hq rfl
          · intro r s hr hs hD
            rw [hu.get, if_neg, i4 r s hr hs (by omega)]
            intro hq
            obtain ⟨rfl, rfl⟩ := hna r hr s hs i hi j hj hq
            omega
          · intro q hq
            rw [hu.get, if_neg (hq i j hi hj), i5 q hq])
      exact ⟨mem2, e2, hcongr (fun r s hs => by omega) hI2⟩)
  exact ⟨mem', e, h1, h2, fun i j hi hj => h3 i j hi hj hi, h5⟩

/-- The kernel never panics. -/
theorem mapM_ne_panic {α β : Type} {f : α → Out β} (h : ∀ a, f a ≠ .panic) (xs : List α) :
    xs.mapM f ≠ .panic := by
  induction xs with
  | nil => simp
  | cons x xs ih =>
    rw [List.mapM_cons]
    intro e
    rw [Out.bind_eq_panic] at e
    rcases e with e | ⟨y, -, e⟩
    · exact h x e
    · rw [Out.bind_eq_panic] at e
      rcases e with e | ⟨ys, -, e⟩
      · exact ih e
      · exact absurd e (by simp)

theorem forRange_ne_panic {σ : Type} {n : Nat} {body : Nat → σ → Out σ}
    (h : ∀ i s, body i s ≠ .panic) (s : σ) : forRange n body s ≠ .panic := by
  induction n with
  | zero => simp
  | succ n ih =>
    rw [forRange_succ]
    intro e
    rw [Out.bind_eq_panic] at e
    rcases e with e | ⟨s', -, e⟩
    · exact ih e
    · exact h _ _ e

theorem read_ne_panic (mem : Mem α) (p : Loc) : mem.read p ≠ .panic := by
  unfold Mem.read; split <;> simp

theorem write_ne_panic (mem : Mem α) (p : Loc) (v : α) : mem.write p v ≠ .panic := by
  unfold Mem.write; split <;> simp

theorem gemm_ne_panic (kern : Kern α) (m k n : Nat) (alpha beta : α) (a b c : Ptr)
    (rsa csa rsb csb rsc csc : Int) (mem : Mem α) :
    gemm kern m k n alpha a rsa csa b rsb csb beta c rsc csc mem ≠ .panic := by
  unfold gemm
  split
  · refine forRange_ne_panic (fun i s => forRange_ne_panic (fun j s e => ?_) _) _
    rw [Out.bind_eq_panic] at e
    rcases e with e | ⟨ps, -, e⟩
    · refine mapM_ne_panic (fun l e => ?_) _ e
      rw [Out.bind_eq_panic] at e
      rcases e with e | ⟨x, -, e⟩
      · exact read_ne_panic _ _ e
      · rw [Out.bind_eq_panic] at e
        rcases e with e | ⟨y, -, e⟩
        · exact read_ne_panic _ _ e
        · exact absurd e (by simp)
    · rw [Out.bind_eq_panic] at e
      rcases e with e | ⟨x, -, e⟩
      · exact read_ne_panic _ _ e
      · exact write_ne_panic _ _ _ e
  · simp

/-! ## What the kernel is given -/

theorem stride_claimed {l : Layout} (h : NotTriangular l) : l.stride = .ok (claimed l) := by
  cases l with
  | upperTriangular u => exact absurd rfl (h u)
  | _ => rfl

theorem asIsize_le [Target] {x : Nat} (h : x ≤ isizeMax) : asIsize x = (x : Int) := by
  unfold asIsize; rw [if_pos h]

/-- The addresses given to the kernel are the cells seen, and are in the container. -/
theorem SeenIn.addr [Target] {m : BaseMatrix} {mem : Mem α} (h : SeenIn m mem) {i j : Nat}
    (hi : i < m.layout.dim.1) (hj : j < m.layout.dim.2) :
    gemmAddr m.get_pointer (asIsize (claimed m.layout).1) (asIsize (claimed m.layout).2) i j =
      ((i * (claimed m.layout).1 + j * (claimed m.layout).2 : Nat) : Int) := by
  have hW := small_W h.container.small
  have e1 : (i : Int) * asIsize (claimed m.layout).1 = ((i * (claimed m.layout).1 : Nat) : Int) := by
    by_cases h0 : i = 0
    · subst h0; simp
    · have := h.inside 1 0 (by omega) (by omega)
      rw [asIsize_le (by omega)]; push_cast; rfl
  have e2 : (j : Int) * asIsize (claimed m.layout).2 = ((j * (claimed m.layout).2 : Nat) : Int) := by
    by_cases h0 : j = 0
    · subst h0; simp
    · have := h.inside 0 1 (by omega) (by omega)
      rw [asIsize_le (by omega)]; push_cast; rfl
  unfold gemmAddr
  rw [e1, e2]
  simp only [BaseMatrix.get_pointer, Container.get_pointer]
  push_cast; ring

theorem SeenIn.valid [Target] {m : BaseMatrix} {mem : Mem α} (h : SeenIn m mem) :
    gemmAllValid m.layout.dim.1 m.layout.dim.2 m.get_pointer (asIsize (claimed m.layout).1)
      (asIsize (claimed m.layout).2) := by
  intro i hi j hj
  unfold gemmValid
  rw [h.addr hi hj]
  have := h.inside i j hi hj
  constructor
  · exact Int.natCast_nonneg _
  · show _ < ((m.data.len : Nat) : Int)
    exact_mod_cast this

theorem SeenIn.loc [Target] {m : BaseMatrix} {mem : Mem α} (h : SeenIn m mem) {i j : Nat}
    (hi : i < m.layout.dim.1) (hj : j < m.layout.dim.2) :
    gemmLoc m.get_pointer (asIsize (claimed m.layout).1) (asIsize (claimed m.layout).2) i j =
      seen m i j := by
  unfold gemmLoc
  rw [h.addr hi hj]
  rfl

theorem SeenIn.lt [Target] {m : BaseMatrix} {mem : Mem α} (h : SeenIn m mem) {i j : Nat}
    (hi : i < m.layout.dim.1) (hj : j < m.layout.dim.2) :
    (seen m i j).idx < mem.size (seen m i j).buf := by
  have := h.inside i j hi hj
  have := h.container.window
  simp only [seen]; omega

/-- `matmul` in terms of the cells seen. -/
theorem matmul_seen [Target] {kern : Kern α} {alpha beta : α} {a b c : BaseMatrix} {mem : Mem α}
    (ha : SeenIn a mem) (hb : SeenIn b mem) (hc : SeenIn c mem)
    (hd : Compatible a.layout b.layout c.layout)
    (hcc : ∀ i j i' j', i < c.layout.dim.1 → j < c.layout.dim.2 → i' < c.layout.dim.1 →
      j' < c.layout.dim.2 → seen c i j = seen c i' j' → i = i' ∧ j = j')
    (hca : ∀ i j i' j', i < c.layout.dim.1 → j < c.layout.dim.2 → i' < a.layout.dim.1 →
      j' < a.layout.dim.2 → seen c i j ≠ seen a i' j')
    (hcb : ∀ i j i' j', i < c.layout.dim.1 → j < c.layout.dim.2 → i' < b.layout.dim.1 →
      j' < b.layout.dim.2 → seen c i j ≠ seen b i' j')
    {A B C : Nat → Nat → α}
    (hA : ∀ i l, i < a.layout.dim.1 → l < a.layout.dim.2 → mem.get? (seen a i l) = some (A i l))
    (hB : ∀ l j, l < b.layout.dim.1 → j < b.layout.dim.2 → mem.get? (seen b l j) = some (B l j))
    (hC : ∀ i j, i < c.layout.dim.1 → j < c.layout.dim.2 → mem.get? (seen c i j) = some (C i j)) :
    ∃ mem', matmul kern alpha a b beta c mem = .ok mem' ∧
      (∀ x, mem'.size x = mem.size x) ∧ mem'.bufs.length = mem.bufs.length ∧
      (∀ i j, i < c.layout.dim.1 → j < c.layout.dim.2 → mem'.get? (seen c i j) =
        some (kern ⟨c.layout.dim.1, c.layout.dim.2, i, j⟩ alpha
          ((List.range a.layout.dim.2).map fun l => (A i l, B l j)) beta (C i j))) ∧
      (∀ q, (∀ i j, i < c.layout.dim.1 → j < c.layout.dim.2 → q ≠ seen c i j) →
        mem'.get? q = mem.get? q) := by
  obtain ⟨d1, d2, d3⟩ := hd
  have hpre : gemmPre a.layout.dim.1 a.layout.dim.2 b.layout.dim.2
      a.get_pointer (asIsize (claimed a.layout).1) (asIsize (claimed a.layout).2)
      b.get_pointer (asIsize (claimed b.layout).1) (asIsize (claimed b.layout).2)
      c.get_pointer (asIsize (claimed c.layout).1) (asIsize (claimed c.layout).2) := by
    refine ⟨ha.valid, by rw [d1]; exact hb.valid, by rw [← d2, ← d3]; exact hc.valid, ?_, ?_, ?_⟩
    · rw [← d2, ← d3]
      intro i hi j hj i' hi' j' hj' e
      rw [hc.loc hi hj, hc.loc hi' hj'] at e
      exact hcc i j i' j' hi hj hi' hj' e
    · rw [← d3]
      intro i hi j hj i' hi' j' hj' e
      rw [hc.loc (by rw [d2]; exact hi) hj, ha.loc hi' hj'] at e
      exact hca i j i' j' (by rw [d2]; exact hi) hj hi' hj' e
    · rw [← d2, ← d3, d1]
      intro i hi j hj i' hi' j' hj' e
      rw [hc.loc hi hj, hb.loc hi' (by rw [← d3]; exact hj')] at e
      exact hcb i j i' j' hi hj hi' (by rw [← d3]; exact hj') e
  unfold matmul
  simp only [Out.assert_pos (show a.layout.dim.2 = b.layout.dim.1 ∧ c.layout.dim.1 = a.layout.dim.1 ∧
      c.layout.dim.2 = b.layout.dim.2 from ⟨d1, d2, d3⟩), Out.bind_ok, stride_claimed ha.notTri,
    stride_claimed hb.notTri, stride_claimed hc.notTri]
  obtain ⟨mem', e, h1, h2, h3, h4⟩ := gemm_ok (kern := kern) (alpha := alpha) (beta := beta)
    (mem := mem) hpre (A := A) (B := B) (C := C)
    (fun i l hi hl => by rw [ha.loc hi hl]; exact hA i l hi hl)
    (fun l j hl hj => by
      rw [hb.loc (by rw [← d1]; exact hl) hj]; exact hB l j (by rw [← d1]; exact hl) hj)
    (fun i j hi hj => by
      rw [hc.loc (by rw [d2]; exact hi) (by rw [d3]; exact hj)]
      exact hC i j (by rw [d2]; exact hi) (by rw [d3]; exact hj))
  refine ⟨mem', e, h1, h2, fun i j hi hj => ?_, fun q hq => h4 q fun i j hi hj => ?_⟩
  · rw [← hc.loc hi hj, h3 i j (by rw [← d2]; exact hi) (by rw [← d3]; exact hj), d2, d3]
  · rw [hc.loc (by rw [d2]; exact hi) (by rw [d3]; exact hj)]
    exact hq i j (by rw [d2]; exact hi) (by rw [d3]; exact hj)

/-! ## Honest layouts -/

theorem Honest.notTri {l : Layout} (h : Honest l) : NotTriangular l := by
  rintro u rfl; exact h

theorem Honest.raw {l : Layout} (h : Honest l) {i j : Nat} (hi : i < l.dim.1) (hj : j < l.dim.2) :
    i * (claimed l).1 + j * (claimed l).2 = raw l i j := by
  cases l with
  | rowMajor l => simp [claimed, Spec.raw]
  | columnMajor l => simp only [claimed, Spec.raw]; ring
  | rowVector l =>
    obtain rfl : i = 0 := by simp only [Layout.dim] at hi; omega
    simp [claimed, Spec.raw]
  | columnVector l =>
    obtain rfl : j = 0 := by simp only [Layout.dim] at hj; omega
    simp [claimed, Spec.raw]
  | asRowVector l =>
    obtain rfl : i = 0 := by simp only [Layout.dim] at hi; omega
    simp [claimed, Spec.raw]
  | asColumnVector l =>
    obtain rfl : j = 0 := by simp only [Layout.dim] at hj; omega
    simp [claimed, Spec.raw]
  | asRowMajor l =>
    obtain ⟨h1, h2⟩ := h
    have hi : i < l.dim.1 := hi
    have hj : j < l.dim.2 := hj
    have e1 : i * l.dim.2 = l.stride.1 * i := by
      by_cases h0 : i = 0
      · subst h0; simp
      · rw [h1 (by omega) (by omega)]; ring
    have e2 : j * 1 = l.stride.2 * j := by
      by_cases h0 : j = 0
      · subst h0; simp
      · rw [h2 (by omega) (by omega)]; ring
    simp only [claimed, Spec.raw, e1, e2]
  | asColumnMajor l =>
    obtain ⟨h1, h2⟩ := h
    have hi : i < l.dim.1 := hi
    have hj : j < l.dim.2 := hj
    have e1 : i * 1 = l.stride.1 * i := by
      by_cases h0 : i = 0
      · subst h0; simp
      · rw [h1 (by omega) (by omega)]; ring
    have e2 : j * l.dim.1 = l.stride.2 * j := by
      by_cases h0 : j = 0
      · subst h0; simp
      · rw [h2 (by omega) (by omega)]; ring
    simp only [claimed, Spec.raw, e1, e2]
  | upperTriangular u => exact absurd h id

/-- Except for strided vectors, the cell seen is the one at the position's 1D index. -/
theorem NotStridedVector.index {l : Layout} (h : NotStridedVector l) {i j : Nat}
    (hi : i < l.dim.1) (hj : j < l.dim.2) :
    i * (claimed l).1 + j * (claimed l).2 = index l i j := by
  cases l with
  | rowMajor l => simp [claimed, Spec.index]
  | columnMajor l => simp only [claimed, Spec.index]; ring
  | rowVector l =>
    obtain rfl : i = 0 := by simp only [Layout.dim] at hi; omega
    simp [claimed, Spec.index]
  | columnVector l =>
    obtain rfl : j = 0 := by simp only [Layout.dim] at hj; omega
    simp [claimed, Spec.index]
  | asRowMajor l => simp [claimed, Spec.index]
  | asColumnMajor l => simp only [claimed, Spec.index]; ring
  | _ => simp [NotStridedVector, IsMajor] at h

theorem NotStridedVector.notTri {l : Layout} (h : NotStridedVector l) : NotTriangular l := by
  rintro u rfl
  simp [NotStridedVector, IsMajor] at h

/-- Such operands never take the kernel out of their container, whatever their strides. -/
theorem NotStridedVector.seenIn [Target] {m : BaseMatrix} {mem : Mem α} (h : NotStridedVector m.layout)
    (hc : ContainerOK m.data mem) (hn : count m.layout ≤ m.data.len) : SeenIn m mem :=
  ⟨hc, h.notTri, fun i j hi hj => by
    rw [h.index hi hj]
    exact lt_of_lt_of_le (index_lt ((stored_of_notTri h.notTri).2 ⟨hi, hj⟩)) hn⟩

theorem NotStridedVector.seen_inj {m : BaseMatrix} (h : NotStridedVector m.layout) {i j i' j' : Nat}
    (hi : i < m.layout.dim.1) (hj : j < m.layout.dim.2) (hi' : i' < m.layout.dim.1)
    (hj' : j' < m.layout.dim.2) (e : seen m i j = seen m i' j') : i = i' ∧ j = j' := by
  simp only [seen, Loc.mk.injEq, true_and] at e
  rw [h.index hi hj, h.index hi' hj'] at e
  exact index_inj ((stored_of_notTri h.notTri).2 ⟨hi, hj⟩)
    ((stored_of_notTri h.notTri).2 ⟨hi', hj'⟩) (by omega)

theorem Honest.seen {m : BaseMatrix} (h : Honest m.layout) {i j : Nat} (hi : i < m.layout.dim.1)
    (hj : j < m.layout.dim.2) : seen m i j = cell m i j := by
  simp only [Spec.seen, cell, h.raw hi hj]

theorem Sound.seenIn [Target] {m : BaseMatrix} {mem : Mem α} (h : Sound m mem) (ho : Honest m.layout) :
    SeenIn m mem :=
  ⟨h.container, ho.notTri, fun i j hi hj => by
    rw [ho.raw hi hj]; exact h.inside i j ((stored_of_notTri ho.notTri).2 ⟨hi, hj⟩)⟩

theorem isMajor_of_dishonest {l : Layout} (ht : NotTriangular l) (h : ¬ Honest l) : IsMajor l := by
  cases l with
  | upperTriangular u => exact absurd rfl (ht u)
  | asRowMajor l => trivial
  | asColumnMajor l => trivial
  | _ => exact absurd trivial h

/-- The last element of a matrix that claims wrong distances is beyond all cells seen. -/
theorem count_le_last {l : Layout} (ht : NotTriangular l) (hn : NonOverlapping l) (h : ¬ Honest l)
    (h1 : 1 ≤ l.dim.1) (h2 : 1 ≤ l.dim.2) : count l ≤ raw l (l.dim.1 - 1) (l.dim.2 - 1) := by
  have key : ∀ R C s t : Nat, 1 ≤ R → 1 ≤ C → 1 ≤ t → t * C ≤ s →
      ¬ ((1 < R → 0 < C → s = C) ∧ (1 < C → 0 < R → t = 1)) →
      R * C ≤ s * (R - 1) + t * (C - 1) := by
    intro R C s t hR hC ht hs hne
    obtain ⟨R, rfl⟩ : ∃ k, R = k + 1 := ⟨R - 1, by omega⟩
    obtain ⟨C, rfl⟩ : ∃ k, C = k + 1 := ⟨C - 1, by omega⟩
    simp only [Nat.add_sub_cancel]
    have hsC : C + 1 ≤ s := by nlinarith
    by_cases h0 : 1 < C + 1 ∧ t ≠ 1
    · have h2t : 2 ≤ t := by omega
      have e1 : 2 * C ≤ t * C := Nat.mul_le_mul_right _ h2t
      have e2 : (C + 1) * R ≤ s * R := Nat.mul_le_mul_right _ hsC
      have e3 : (R + 1) * (C + 1) = (C + 1) * R + (C + 1) := by ring
      omega
    · have h3 : 1 < R + 1 ∧ s ≠ C + 1 := by
        by_contra hcon
        apply hne
        constructor
        · intro a _; by_contra hx; exact hcon ⟨a, hx⟩
        · intro a _; by_contra hx; exact h0 ⟨a, hx⟩
      have hsC' : C + 2 ≤ s := by omega
      have e1 : 1 * C ≤ t * C := Nat.mul_le_mul_right _ ht
      have e2 : (C + 2) * R ≤ s * R := Nat.mul_le_mul_right _ hsC'
      have e3 : (R + 1) * (C + 1) = (C + 2) * R + (C + 1) - R := by
        have : (C + 2) * R = (R + 1) * (C + 1) + R - (C + 1) := by
          have : (C + 2) * R + (C + 1) = (R + 1) * (C + 1) + R := by ring
          omega
        have h5 : (C + 2) * R + (C + 1) = (R + 1) * (C + 1) + R := by ring
        omega
      omega
  cases l with
  | upperTriangular u => exact absurd rfl (ht u)
  | asRowMajor l => exact key _ _ _ _ h1 h2 hn.1 hn.2 h
  | asColumnMajor l =>
    have := key _ _ _ _ h2 h1 hn.1 hn.2 fun hh => h ⟨fun a b => hh.2 a b, fun a b => hh.1 a b⟩
    simp only [Layout.dim, count, Spec.raw] at this ⊢
    rw [Nat.mul_comm]; omega
  | _ => exact absurd trivial h

theorem last_unseen {m : BaseMatrix} (ht : NotTriangular m.layout) (hn : NonOverlapping m.layout)
    (h : ¬ Honest m.layout) {i j : Nat} (hi : i < m.layout.dim.1) (hj : j < m.layout.dim.2) :
    seen m i j ≠ cell m (m.layout.dim.1 - 1) (m.layout.dim.2 - 1) := by
  have h1 := count_le_last ht hn h (by omega) (by omega)
  have h2 : index m.layout i j < count m.layout := index_lt ((stored_of_notTri ht).2 ⟨hi, hj⟩)
  have h3 := NotStridedVector.index (Or.inl (isMajor_of_dishonest ht h)) hi hj
  simp only [Spec.seen, cell, ne_eq, Loc.mk.injEq, true_and]
  omega

/-- Whatever distances it claims, an operand that keeps its elements apart can be given to the
kernel. -/
theorem Sound.seen_ok [Target] {m : BaseMatrix} {mem : Mem α} (h : Sound m mem)
    (ht : NotTriangular m.layout) (hn : NonOverlapping m.layout) :
    SeenIn m mem ∧ ∀ i j i' j', i < m.layout.dim.1 → j < m.layout.dim.2 → i' < m.layout.dim.1 →
      j' < m.layout.dim.2 → Spec.seen m i j = Spec.seen m i' j' → i = i' ∧ j = j' := by
  by_cases ho : Honest m.layout
  · refine ⟨h.seenIn ho, fun i j i' j' hi hj hi' hj' e => ?_⟩
    rw [ho.seen hi hj, ho.seen hi' hj'] at e
    exact cell_inj hn ((stored_of_notTri ht).2 ⟨hi, hj⟩) ((stored_of_notTri ht).2 ⟨hi', hj'⟩) e
  · have hv : NotStridedVector m.layout := Or.inl (isMajor_of_dishonest ht ho)
    exact ⟨hv.seenIn h.container h.count_le,
      fun i j i' j' hi hj hi' hj' e => hv.seen_inj hi hj hi' hj' e⟩

/-! ## Memories with chosen contents -/

/-- A memory with the allocations of `mem` and contents `f`. -/
def fillWith (mem : Mem α) (f : Loc → α) : Mem α :=
  ⟨mem.bufs.mapIdx fun b xs => xs.mapIdx fun i _ => f ⟨b, i⟩⟩

theorem fillWith_size (mem : Mem α) (f : Loc → α) (b : Nat) :
    (fillWith mem f).size b = mem.size b := by
  unfold fillWith Mem.size
  simp only [List.getElem?_mapIdx]
  cases mem.bufs[b]? <;> simp

theorem fillWith_get (mem : Mem α) (f : Loc → α) {p : Loc} (h : p.idx < mem.size p.buf) :
    (fillWith mem f).get? p = some (f p) := by
  obtain ⟨v, hv⟩ := Mem.get?_isSome_iff.2 h
  unfold Mem.get? at hv ⊢
  unfold fillWith
  simp only [List.getElem?_mapIdx]
  cases hb : mem.bufs[p.buf]? with
  | none => simp [hb] at hv
  | some xs =>
    simp only [hb, Option.bind_some, Option.map_some, List.getElem?_mapIdx] at hv ⊢
    simp [hv]

end Householder.Spec
