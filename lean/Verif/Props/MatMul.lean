import Verif.Lemmas.MatMul
import Verif.Props.Expr
import Mathlib.Algebra.BigOperators.Fin

/-!
# Properties C42–C49: matrix products
-/

namespace Householder.Props

open Spec

variable {α : Type}

/-! ## Example operands -/

/-- A 2 × 3 matrix in buffer 0, a 3 × 2 column-major matrix in buffer 1, space for 2 × 2 results in
buffer 2, a strided vector of 3 elements in buffer 3. -/
def exMemP : Mem Int :=
  ⟨[[1, 2, 3, 4, 5, 6], [1, 0, 2, 0, 1, 1], [100, 200, 300, 400, 9], [7, -1, 8, -1, 9]]⟩
def exA : BaseMatrix := ⟨⟨0, 0, 6⟩, .rowMajor ⟨(2, 3)⟩, .dynamic, .dynamic⟩
def exB : BaseMatrix := ⟨⟨1, 0, 6⟩, .columnMajor ⟨(3, 2)⟩, .dynamic, .dynamic⟩
def exC : BaseMatrix := ⟨⟨2, 0, 5⟩, .rowMajor ⟨(2, 2)⟩, .dynamic, .dynamic⟩
def exV : BaseMatrix := ⟨⟨3, 0, 5⟩, .asColumnVector ⟨3, 2⟩, .dynamic, .fixed1⟩
def exW : BaseMatrix := ⟨⟨2, 0, 5⟩, .columnVector ⟨2⟩, .dynamic, .fixed1⟩

theorem exA_sound [Target] : Sound exA exMemP :=
  sound_of_contiguous (by trivial) ⟨by decide_width, by decide_width⟩ (by decide_width)
theorem exB_sound [Target] : Sound exB exMemP :=
  sound_of_contiguous (by trivial) ⟨by decide_width, by decide_width⟩ (by decide_width)
theorem exC_sound [Target] : Sound exC exMemP :=
  sound_of_contiguous (by trivial) ⟨by decide_width, by decide_width⟩ (by decide_width)

/-! ## C42 -/

/-- **C42.** `matmul` panics iff the shapes do not fit, whatever the memory contains. (The panic
comes before any access: it happens for every memory, also for the one without any allocation,
in which every access is undefined.) -/
theorem C42_dimensions [Target] (kern : Kern α) (alpha beta : α) (a b c : BaseMatrix)
    (ha : NotTriangular a.layout) (hb : NotTriangular b.layout) (hc : NotTriangular c.layout) :
    (¬ (a.layout.dim.2 = b.layout.dim.1 ∧ c.layout.dim.1 = a.layout.dim.1 ∧
        c.layout.dim.2 = b.layout.dim.2) →
      ∀ mem, matmul kern alpha a b beta c mem = .panic) ∧
    ((a.layout.dim.2 = b.layout.dim.1 ∧ c.layout.dim.1 = a.layout.dim.1 ∧
        c.layout.dim.2 = b.layout.dim.2) →
      ∀ mem, matmul kern alpha a b beta c mem ≠ .panic) := by
  refine ⟨fun h mem => ?_, fun h mem => ?_⟩
  · unfold matmul
    simp only [Out.assert_neg h, Out.bind_panic]
  · unfold matmul
    simp only [Out.assert_pos h, Out.bind_ok, stride_claimed ha, stride_claimed hb,
      stride_claimed hc]
    exact gemm_ne_panic _ _ _ _ _ _ _ _ _ _ _ _ _ _ _ _

example : matmul exactKern 1 exA exA 0 exC exMemP = .panic ∧
    matmul exactKern 1 exB exA 0 exC exMemP = .panic ∧
    matmul exactKern 1 exA exA 0 exC ⟨[]⟩ = .panic := by decide

/-! ## C43 and C44 -/

theorem represents_iff {m : BaseMatrix} (hm : NotTriangular m.layout) {mem : Mem α} {A : Arr α} :
    Represents m mem A ↔ ∀ i j, i < m.layout.dim.1 → j < m.layout.dim.2 →
      elem m mem i j = some (A i j) := by
  constructor
  · intro h i j hi hj; exact h i j ((stored_of_notTri hm).2 ⟨hi, hj⟩)
  · intro h i j hs; exact h i j hs.1 hs.2.1

theorem represents_get [Target] {m : BaseMatrix} {mem : Mem α} (h : Sound m mem) (cfg : Cfg) {A : Arr α} :
    Represents m mem A ↔ ∀ i j, Stored m.layout i j → m.get cfg mem i j = .ok (A i j) := by
  constructor
  · intro hA i j hs; exact h.get cfg hs (hA i j hs)
  · intro hA i j hs; exact (h.get_iff cfg hs _).1 (hA i j hs)

/-- `matmul` on operands whose layouts claim the distances they have. -/
theorem matmul_honest [Target] {kern : Kern α} {alpha beta : α} {a b c : BaseMatrix} {mem : Mem α}
    (ha : Sound a mem) (hb : Sound b mem) (hc : Sound c mem)
    (hoa : Honest a.layout) (hob : Honest b.layout) (hoc : Honest c.layout)
    (hn : NonOverlapping c.layout) (hd : Compatible a.layout b.layout c.layout)
    (hca : Separate c a) (hcb : Separate c b) {A B C : Arr α}
    (hA : Represents a mem A) (hB : Represents b mem B) (hC : Represents c mem C) :
    ∃ mem', matmul kern alpha a b beta c mem = .ok mem' ∧ FrameOf c mem mem' ∧
      Represents c mem' (fun i j => kern ⟨c.layout.dim.1, c.layout.dim.2, i, j⟩ alpha
        ((List.range a.layout.dim.2).map fun l => (A i l, B l j)) beta (C i j)) := by
  have sa : ∀ i j, Stored a.layout i j ↔ i < a.layout.dim.1 ∧ j < a.layout.dim.2 :=
    fun _ _ => stored_of_notTri hoa.notTri
  have sb : ∀ i j, Stored b.layout i j ↔ i < b.layout.dim.1 ∧ j < b.layout.dim.2 :=
    fun _ _ => stored_of_notTri hob.notTri
  have sc : ∀ i j, Stored c.layout i j ↔ i < c.layout.dim.1 ∧ j < c.layout.dim.2 :=
    fun _ _ => stored_of_notTri hoc.notTri
  obtain ⟨mem', e, h1, h2, h3, h4⟩ := matmul_seen (kern := kern) (alpha := alpha) (beta := beta)
    (ha.seenIn hoa) (hb.seenIn hob) (hc.seenIn hoc) hd
    (by
      intro i j i' j' hi hj hi' hj' e
      rw [hoc.seen hi hj, hoc.seen hi' hj'] at e
      exact cell_inj hn ((sc i j).2 ⟨hi, hj⟩) ((sc i' j').2 ⟨hi', hj'⟩) e)
    (by
      intro i j i' j' hi hj hi' hj'
      rw [hoc.seen hi hj, hoa.seen hi' hj']
      exact hca i j i' j' ((sc i j).2 ⟨hi, hj⟩) ((sa i' j').2 ⟨hi', hj'⟩))
    (by
      intro i j i' j' hi hj hi' hj'
      rw [hoc.seen hi hj, hob.seen hi' hj']
      exact hcb i j i' j' ((sc i j).2 ⟨hi, hj⟩) ((sb i' j').2 ⟨hi', hj'⟩))
    (A := A) (B := B) (C := C)
    (fun i l hi hl => by rw [hoa.seen hi hl]; exact hA i l ((sa i l).2 ⟨hi, hl⟩))
    (fun l j hl hj => by rw [hob.seen hl hj]; exact hB l j ((sb l j).2 ⟨hl, hj⟩))
    (fun i j hi hj => by rw [hoc.seen hi hj]; exact hC i j ((sc i j).2 ⟨hi, hj⟩))
  refine ⟨mem', e, ⟨h1, h2, fun q hq => h4 q fun i j hi hj => ?_⟩, fun i j hs => ?_⟩
  · rw [hoc.seen hi hj]; exact hq i j ((sc i j).2 ⟨hi, hj⟩)
  · obtain ⟨hi, hj⟩ := (sc i j).1 hs
    rw [elem, ← hoc.seen hi hj]
    exact h3 i j hi hj

theorem exactKern_eq [Semiring α] (x : Site) (alpha beta c : α) (k : Nat) (f g : Nat → α) :
    exactKern x alpha ((List.range k).map fun l => (f l, g l)) beta c =
      alpha * (∑ l ∈ Finset.range k, f l * g l) + beta * c := by
  unfold exactKern
  congr 2
  induction k with
  | zero => simp
  | succ k ih =>
    rw [List.range_succ, Finset.sum_range_succ, ← ih]
    simp

/-- **C43.** `matmul(alpha, a, b, beta, c)` computes `alpha * a * b + beta * c`, in exact arithmetic
over any semiring, for every combination of contiguous matrices, contiguous and strided vectors
(and those strided matrices whose `stride()` is right), all shapes and values. -/
theorem C43_matmul [Target] [Semiring α] (cfg : Cfg) (alpha beta : α) (a b c : BaseMatrix) (mem : Mem α)
    (ha : Sound a mem) (hb : Sound b mem) (hc : Sound c mem)
    (hoa : Honest a.layout) (hob : Honest b.layout) (hoc : Honest c.layout)
    (hn : NonOverlapping c.layout) (hd : Compatible a.layout b.layout c.layout)
    (hca : Separate c a) (hcb : Separate c b) (A B C : Arr α)
    (hA : ∀ i l, i < a.layout.dim.1 → l < a.layout.dim.2 → a.get cfg mem i l = .ok (A i l))
    (hB : ∀ l j, l < b.layout.dim.1 → j < b.layout.dim.2 → b.get cfg mem l j = .ok (B l j))
    (hC : ∀ i j, i < c.layout.dim.1 → j < c.layout.dim.2 → c.get cfg mem i j = .ok (C i j)) :
    ∃ mem', matmul exactKern alpha a b beta c mem = .ok mem' ∧
      ∀ i j, i < c.layout.dim.1 → j < c.layout.dim.2 → c.get cfg mem' i j =
        .ok (alpha * (∑ l ∈ Finset.range a.layout.dim.2, A i l * B l j) + beta * C i j) := by
  obtain ⟨mem', e, hf, hr⟩ := matmul_honest (kern := exactKern) (alpha := alpha) (beta := beta)
    ha hb hc hoa hob hoc hn hd hca hcb
    ((represents_get ha cfg).2 fun i j hs => hA i j hs.1 hs.2.1)
    ((represents_get hb cfg).2 fun i j hs => hB i j hs.1 hs.2.1)
    ((represents_get hc cfg).2 fun i j hs => hC i j hs.1 hs.2.1)
  refine ⟨mem', e, fun i j hi hj => ?_⟩
  have hs : Stored c.layout i j := (stored_of_notTri hoc.notTri).2 ⟨hi, hj⟩
  rw [(hc.mono (by rw [hf.size])).get cfg hs (hr i j hs)]
  simp only [exactKern_eq]

/-- **C43** in terms of Mathlib matrices. -/
theorem C43_matrix [Target] [CommSemiring α] (alpha beta : α) (a b c : BaseMatrix) (mem : Mem α)
    (ha : Sound a mem) (hb : Sound b mem) (hc : Sound c mem)
    (hoa : Honest a.layout) (hob : Honest b.layout) (hoc : Honest c.layout)
    (hn : NonOverlapping c.layout) (m k n : Nat) (hda : a.layout.dim = (m, k))
    (hdb : b.layout.dim = (k, n)) (hdc : c.layout.dim = (m, n))
    (hca : Separate c a) (hcb : Separate c b) (A B C : Arr α)
    (hA : Represents a mem A) (hB : Represents b mem B) (hC : Represents c mem C) :
    ∃ mem' C', matmul exactKern alpha a b beta c mem = .ok mem' ∧ Represents c mem' C' ∧
      toMatrix m n C' = alpha • (toMatrix m k A * toMatrix k n B) + beta • toMatrix m n C := by
  obtain ⟨mem', e, hf, hr⟩ := matmul_honest (kern := exactKern) (alpha := alpha) (beta := beta)
    ha hb hc hoa hob hoc hn (by simp [Compatible, hda, hdb, hdc]) hca hcb hA hB hC
  refine ⟨mem', _, e, hr, ?_⟩
  ext i j
  simp only [exactKern_eq, toMatrix, Matrix.of_apply, Matrix.add_apply, Matrix.smul_apply,
    Matrix.mul_apply, smul_eq_mul, hda]
  rw [Finset.sum_range]

example : matmul exactKern 2 exA exB 3 exC exMemP =
    .ok ⟨[[1, 2, 3, 4, 5, 6], [1, 0, 2, 0, 1, 1],
      [2 * (1 * 1 + 2 * 0 + 3 * 2) + 3 * 100, 2 * (1 * 0 + 2 * 1 + 3 * 1) + 3 * 200,
       2 * (4 * 1 + 5 * 0 + 6 * 2) + 3 * 300, 2 * (4 * 0 + 5 * 1 + 6 * 1) + 3 * 400, 9],
      [7, -1, 8, -1, 9]]⟩ := by decide
/-- Matrix times strided vector. -/
example : matmul exactKern 1 exA exV 0 exW exMemP =
    .ok ⟨[[1, 2, 3, 4, 5, 6], [1, 0, 2, 0, 1, 1],
      [1 * 7 + 2 * 8 + 3 * 9, 4 * 7 + 5 * 8 + 6 * 9, 300, 400, 9], [7, -1, 8, -1, 9]]⟩ := by decide
example : Honest exA.layout ∧ Honest exB.layout ∧ Honest exC.layout ∧ Honest exV.layout ∧
    NonOverlapping exC.layout ∧ Compatible exA.layout exB.layout exC.layout ∧
    Separate exC exA ∧ Separate exC exB :=
  ⟨trivial, trivial, trivial, trivial, trivial, ⟨rfl, rfl, rfl⟩,
    fun r c r' c' _ _ e => absurd (congrArg Loc.buf e) (by simp [cell, exC, exA]),
    fun r c r' c' _ _ e => absurd (congrArg Loc.buf e) (by simp [cell, exC, exB])⟩

/-- **C44.** `matmul` changes nothing but the elements of `c`: every cell that is not an element of
`c` (also in gaps and padding of `c`'s container), hence every element of `a`, `b` and every other
matrix that shares no element with `c`, is unchanged, whatever the kernel's arithmetic. -/
theorem C44_only_c [Target] (cfg : Cfg) (kern : Kern α) (alpha beta : α) (a b c : BaseMatrix) (mem mem' : Mem α)
    (ha : Sound a mem) (hb : Sound b mem) (hc : Sound c mem)
    (hoa : Honest a.layout) (hob : Honest b.layout) (hoc : Honest c.layout)
    (hn : NonOverlapping c.layout) (hca : Separate c a) (hcb : Separate c b)
    (h : matmul kern alpha a b beta c mem = .ok mem') :
    (∀ q, (∀ i j, i < c.layout.dim.1 → j < c.layout.dim.2 → q ≠ cell c i j) →
      mem'.get? q = mem.get? q) ∧
    (∀ x, Sound x mem → Separate c x → ∀ r s, Stored x.layout r s →
      x.get cfg mem' r s = x.get cfg mem r s) ∧
    (∀ x, mem'.size x = mem.size x) := by
  have hd : Compatible a.layout b.layout c.layout := by
    by_contra hd
    rw [(C42_dimensions kern alpha beta a b c hoa.notTri hob.notTri hoc.notTri).1 hd mem] at h
    exact absurd h (by simp)
  have hrep : ∀ m : BaseMatrix, Sound m mem → ∃ A : Arr α, Represents m mem A :=
    fun m hm => @represents_some _ _ m mem hm ⟨alpha⟩
  obtain ⟨A, hA⟩ := hrep a ha
  obtain ⟨B, hB⟩ := hrep b hb
  obtain ⟨C, hC⟩ := hrep c hc
  obtain ⟨mem1, e, hf, -⟩ := matmul_honest (kern := kern) (alpha := alpha) (beta := beta)
    ha hb hc hoa hob hoc hn hd hca hcb hA hB hC
  rw [h] at e
  obtain rfl : mem' = mem1 := by simpa using e
  refine ⟨fun q hq => hf.other q fun i j hs => hq i j hs.1 hs.2.1, ?_, hf.size⟩
  intro x hx hcx r s hs
  obtain ⟨v, hv⟩ := hx.elem_some hs
  rw [hx.get cfg hs hv, (hx.mono (by rw [hf.size])).get cfg hs]
  rw [elem, hf.other _ fun i j hs' e => hcx i j r s hs' hs e.symm]
  exact hv

/-- The fifth cell of buffer 2 is in `exC`'s container but is not an element. -/
example : ∃ mem', matmul exactKern 2 exA exB 3 exC exMemP = .ok mem' ∧
    mem'.get? ⟨2, 4⟩ = exMemP.get? ⟨2, 4⟩ ∧ mem'.get? ⟨2, 3⟩ ≠ exMemP.get? ⟨2, 3⟩ :=
  ⟨_, rfl, by decide, by decide⟩

/-! ## C45 -/

/-- The full statement of C45: `matmul` with a block as its first operand computes the product of
the block. -/
def C45_statement [Target] : Prop :=
  ∀ (cfg : Cfg) (a b c blk : BaseMatrix) (mem mem' : Mem Int) (tl d : Nat × Nat) (A B : Arr Int),
    Sound a mem → Sound b mem → Sound c mem → Contiguous a.layout → IsMajor a.layout →
    Contiguous b.layout → IsMajor b.layout → Contiguous c.layout → IsMajor c.layout →
    c.data.buf ≠ a.data.buf → c.data.buf ≠ b.data.buf →
    a.block cfg tl d = .ok blk → Represents blk mem A → Represents b mem B →
    matmul exactKern 1 blk b 0 c mem = .ok mem' →
    ∀ i j, i < c.layout.dim.1 → j < c.layout.dim.2 →
      c.get cfg mem' i j = .ok (∑ l ∈ Finset.range d.2, A i l * B l j)

def exMem45 : Mem Int :=
  ⟨[[1, 2, 3, 4, 5, 6], [1, 0, 0, 1], [0, 0, 0, 0]]⟩

/-- **C45 is false of the code**: the left 2 × 2 block `[1 2; 4 5]` of `[1 2 3; 4 5 6]` times the
unit matrix gives `[1 2; 3 4]`, because the block reports the strides of a contiguous 2 × 2
matrix. -/
theorem C45_false [Target] : ¬ C45_statement := by
  intro h
  have hA : Represents (⟨⟨0, 0, 5⟩, .asRowMajor ⟨(2, 2), (3, 1)⟩, .dynamic, .dynamic⟩ : BaseMatrix)
      exMem45 (fun i j => 3 * i + j + 1) := by
    rintro r c ⟨hr, hc, -⟩
    have hr : r < 2 := hr
    have hc : c < 2 := hc
    obtain rfl | rfl : r = 0 ∨ r = 1 := by omega
    all_goals obtain rfl | rfl : c = 0 ∨ c = 1 := by omega
    all_goals decide
  have hB : Represents (⟨⟨1, 0, 4⟩, .rowMajor ⟨(2, 2)⟩, .dynamic, .dynamic⟩ : BaseMatrix)
      exMem45 (fun i j => if i = j then 1 else 0) := by
    rintro r c ⟨hr, hc, -⟩
    have hr : r < 2 := hr
    have hc : c < 2 := hc
    obtain rfl | rfl : r = 0 ∨ r = 1 := by omega
    all_goals obtain rfl | rfl : c = 0 ∨ c = 1 := by omega
    all_goals decide
  have := h dbg ⟨⟨0, 0, 6⟩, .rowMajor ⟨(2, 3)⟩, .dynamic, .dynamic⟩
    ⟨⟨1, 0, 4⟩, .rowMajor ⟨(2, 2)⟩, .dynamic, .dynamic⟩
    ⟨⟨2, 0, 4⟩, .rowMajor ⟨(2, 2)⟩, .dynamic, .dynamic⟩
    ⟨⟨0, 0, 5⟩, .asRowMajor ⟨(2, 2), (3, 1)⟩, .dynamic, .dynamic⟩ exMem45
    ⟨[[1, 2, 3, 4, 5, 6], [1, 0, 0, 1], [1, 2, 3, 4]]⟩ (0, 0) (2, 2) _ _
    (sound_of_contiguous (by trivial) ⟨by decide_width, by decide_width⟩ (by decide_width))
    (sound_of_contiguous (by trivial) ⟨by decide_width, by decide_width⟩ (by decide_width))
    (sound_of_contiguous (by trivial) ⟨by decide_width, by decide_width⟩ (by decide_width))
    trivial trivial trivial trivial trivial trivial (by decide_width) (by decide_width) (by decide_width)
    hA hB (by decide_width) 1 0 (by decide_width) (by decide_width)
  revert this
  decide_width

theorem multiplies_honest [Target] {cfg : Cfg} {a b c : BaseMatrix}
    (hoa : Honest a.layout) (hob : Honest b.layout) (hoc : Honest c.layout)
    (hn : NonOverlapping c.layout) (hd : Compatible a.layout b.layout c.layout)
    (hca : Separate c a) (hcb : Separate c b) : Multiplies cfg a b c := by
  intro mem A B ha hb hc hA hB
  obtain ⟨C, hC⟩ := represents_some hc
  have hC' : ∀ i j, i < c.layout.dim.1 → j < c.layout.dim.2 → c.get cfg mem i j = .ok (C i j) :=
    fun i j hi hj => (represents_get hc cfg).1 hC i j ((stored_of_notTri hoc.notTri).2 ⟨hi, hj⟩)
  obtain ⟨mem', e, h⟩ := C43_matmul cfg 1 0 a b c mem ha hb hc hoa hob hoc hn hd hca hcb A B C
    hA hB hC'
  exact ⟨mem', e, fun i j hi hj => by rw [h i j hi hj]; simp⟩

/-- **C45, partial**: exactly which operands are multiplied correctly. For operands of any of the
nine layouts but upper triangular, in storage of their own, with elements kept apart (all blocks of
contiguous matrices are), nonempty and of fitting shapes: `matmul` computes their product iff each
of the three reports the strides it has. Missing: the others (`C45_false`). -/
theorem C45_partial [Target] (cfg : Cfg) (a b c : BaseMatrix) (mem0 : Mem Int)
    (ha : Sound a mem0) (hb : Sound b mem0) (hc : Sound c mem0)
    (hta : NotTriangular a.layout) (htb : NotTriangular b.layout) (htc : NotTriangular c.layout)
    (hna : NonOverlapping a.layout) (hnb : NonOverlapping b.layout) (hnc : NonOverlapping c.layout)
    (hab : a.data.buf ≠ b.data.buf) (hca : c.data.buf ≠ a.data.buf) (hcb : c.data.buf ≠ b.data.buf)
    (hd : Compatible a.layout b.layout c.layout)
    (h1 : 1 ≤ a.layout.dim.1) (h2 : 1 ≤ a.layout.dim.2) (h3 : 1 ≤ b.layout.dim.2) :
    Multiplies cfg a b c ↔ Honest a.layout ∧ Honest b.layout ∧ Honest c.layout := by
  obtain ⟨d1, d2, d3⟩ := hd
  have hsca : Separate c a := fun r s r' s' _ _ e => hca (congrArg Loc.buf e)
  have hscb : Separate c b := fun r s r' s' _ _ e => hcb (congrArg Loc.buf e)
  constructor
  swap
  · rintro ⟨hoa, hob, hoc⟩
    exact multiplies_honest hoa hob hoc hnc ⟨d1, d2, d3⟩ hsca hscb
  intro hM
  have sound : ∀ (f : Loc → Int) (x : BaseMatrix), Sound x mem0 → Sound x (fillWith mem0 f) :=
    fun f x hx => hx.mono (by rw [fillWith_size])
  have stored : ∀ (x : BaseMatrix), NotTriangular x.layout → ∀ i j, i < x.layout.dim.1 →
      j < x.layout.dim.2 → Stored x.layout i j := fun x ht i j hi hj => (stored_of_notTri ht).2 ⟨hi, hj⟩
  have value : ∀ (f : Loc → Int) (x : BaseMatrix), Sound x mem0 → NotTriangular x.layout →
      ∀ i j, i < x.layout.dim.1 → j < x.layout.dim.2 →
      x.get cfg (fillWith mem0 f) i j = .ok (f (cell x i j)) := by
    intro f x hx ht i j hi hj
    have hs := stored x ht i j hi hj
    exact (sound f x hx).get cfg hs (fillWith_get _ _ (hx.cell_lt hs))
  have vseen : ∀ (f : Loc → Int) (x : BaseMatrix), Sound x mem0 → NotTriangular x.layout →
      NonOverlapping x.layout → ∀ i j, i < x.layout.dim.1 → j < x.layout.dim.2 →
      (fillWith mem0 f).get? (seen x i j) = some (f (seen x i j)) :=
    fun f x hx ht hn i j hi hj => fillWith_get _ _ ((hx.seen_ok ht hn).1.lt hi hj)
  -- what `matmul` does to a memory with contents `f`
  have run : ∀ f : Loc → Int, ∃ mem', matmul exactKern 1 a b 0 c (fillWith mem0 f) = .ok mem' ∧
      (∀ x, mem'.size x = mem0.size x) ∧
      (∀ i j, i < c.layout.dim.1 → j < c.layout.dim.2 → mem'.get? (seen c i j) =
        some (∑ l ∈ Finset.range a.layout.dim.2, f (seen a i l) * f (seen b l j))) ∧
      (∀ q, (∀ i j, i < c.layout.dim.1 → j < c.layout.dim.2 → q ≠ seen c i j) →
        mem'.get? q = (fillWith mem0 f).get? q) ∧
      ∀ i j, i < c.layout.dim.1 → j < c.layout.dim.2 → mem'.get? (cell c i j) =
        some (∑ l ∈ Finset.range a.layout.dim.2, f (cell a i l) * f (cell b l j)) := by
    intro f
    obtain ⟨mem', e, k1, -, k2, k3⟩ := matmul_seen (kern := exactKern) (alpha := 1) (beta := 0)
      ((sound f a ha).seen_ok hta hna).1 ((sound f b hb).seen_ok htb hnb).1
      ((sound f c hc).seen_ok htc hnc).1 ⟨d1, d2, d3⟩ ((sound f c hc).seen_ok htc hnc).2
      (fun i j i' j' _ _ _ _ e => hca (congrArg Loc.buf e))
      (fun i j i' j' _ _ _ _ e => hcb (congrArg Loc.buf e))
      (vseen f a ha hta hna) (vseen f b hb htb hnb) (vseen f c hc htc hnc)
    obtain ⟨mem1, e', hp⟩ := hM _ _ _ (sound f a ha) (sound f b hb) (sound f c hc)
      (value f a ha hta) (value f b hb htb)
    rw [e] at e'
    obtain rfl : mem' = mem1 := by simpa using e'
    refine ⟨mem', e, fun x => by rw [k1, fillWith_size], fun i j hi hj => ?_, k3,
      fun i j hi hj => ?_⟩
    · rw [k2 i j hi hj]
      simp only [exactKern_eq]
      simp
    · have hS : Sound c mem' := (sound f c hc).mono (by rw [k1])
      exact (hS.get_iff cfg (stored c htc i j hi hj) _).1 (hp i j hi hj)
  have hoc : Honest c.layout := by
    by_contra hoc
    obtain ⟨mem', -, -, -, k3, k4⟩ := run fun q => if q.buf = c.data.buf then 0 else 1
    have h4 := k4 (c.layout.dim.1 - 1) (c.layout.dim.2 - 1) (by omega) (by omega)
    rw [k3 _ fun i j hi hj e => last_unseen htc hnc hoc hi hj e.symm, fillWith_get _ _
      (hc.cell_lt (stored c htc _ _ (by omega) (by omega)))] at h4
    simp only [cell, Ne.symm hca, Ne.symm hcb, if_true, if_false, mul_one, Finset.sum_const,
      Finset.card_range, Option.some.injEq, nsmul_eq_mul] at h4
    omega
  refine ⟨?_, ?_, hoc⟩
  · by_contra hoa
    obtain ⟨mem', -, -, k2, -, k4⟩ := run fun q =>
      if q.buf = b.data.buf then 1
      else if q = cell a (a.layout.dim.1 - 1) (a.layout.dim.2 - 1) then 1 else 0
    have h4 := k4 (a.layout.dim.1 - 1) 0 (by omega) (by omega)
    rw [← hoc.seen (by omega) (by omega), k2 _ _ (by omega) (by omega)] at h4
    rw [Finset.sum_eq_zero, Finset.sum_eq_single (a.layout.dim.2 - 1)] at h4
    · simp [cell, hab] at h4
    · intro l hl hne
      have hl := Finset.mem_range.1 hl
      have : cell a (a.layout.dim.1 - 1) l ≠ cell a (a.layout.dim.1 - 1) (a.layout.dim.2 - 1) :=
        fun e => hne (cell_inj hna (stored a hta _ _ (by omega) (by omega))
          (stored a hta _ _ (by omega) (by omega)) e).2
      rw [if_neg (by simpa [cell] using hab), if_neg this, zero_mul]
    · intro hne; exact absurd (Finset.mem_range.2 (by omega)) hne
    · intro l hl
      have hl := Finset.mem_range.1 hl
      rw [if_neg (by simpa [seen] using hab), if_neg (last_unseen hta hna hoa (by omega) hl), zero_mul]
  · by_contra hob
    obtain ⟨mem', -, -, k2, -, k4⟩ := run fun q =>
      if q.buf = a.data.buf then 1
      else if q = cell b (b.layout.dim.1 - 1) (b.layout.dim.2 - 1) then 1 else 0
    have h4 := k4 0 (b.layout.dim.2 - 1) (by omega) (by omega)
    rw [← hoc.seen (by omega) (by omega), k2 _ _ (by omega) (by omega)] at h4
    rw [Finset.sum_eq_zero, Finset.sum_eq_single (b.layout.dim.1 - 1)] at h4
    · simp [cell, Ne.symm hab] at h4
    · intro l hl hne
      have hl := Finset.mem_range.1 hl
      have : cell b l (b.layout.dim.2 - 1) ≠ cell b (b.layout.dim.1 - 1) (b.layout.dim.2 - 1) :=
        fun e => hne (cell_inj hnb (stored b htb _ _ (by omega) (by omega))
          (stored b htb _ _ (by omega) (by omega)) e).1
      rw [if_neg (show ¬ (cell b l (b.layout.dim.2 - 1)).buf = a.data.buf from Ne.symm hab),
        if_neg this, mul_zero]
    · intro hne; exact absurd (Finset.mem_range.2 (by omega)) hne
    · intro l hl
      have hl := Finset.mem_range.1 hl
      rw [if_neg (show ¬ (seen b l (b.layout.dim.2 - 1)).buf = a.data.buf from Ne.symm hab),
        if_neg (last_unseen htb hnb hob (by omega) (by omega)), mul_zero]

/-- Which blocks report the strides they have: single rows, and whole rows, of row-major matrices
(columns for column-major ones). -/
theorem C45_blocks_partial [Target] (cfg : Cfg) (a blk : BaseMatrix) (mem : Mem α) (h : Sound a mem)
    (hm : IsMajor a.layout) (hc : Contiguous a.layout) (tl d : Nat × Nat)
    (hf : Fits a.layout tl d) (h1 : 1 ≤ d.1) (h2 : 1 ≤ d.2) (e : a.block cfg tl d = .ok blk) :
    Sound blk mem ∧ NotTriangular blk.layout ∧ NonOverlapping blk.layout ∧
    (Honest blk.layout ↔ match a.layout with
      | .rowMajor l => d.1 = 1 ∨ d.2 = l.dim.2
      | .columnMajor l => d.2 = 1 ∨ d.1 = l.dim.1
      | _ => True) := by
  obtain ⟨b', e', hv, -, hl, -, hno, -⟩ := (view_of_contiguous h hm hc).block cfg hf h1 h2
  rw [e] at e'
  obtain rfl : blk = b' := by simpa using e'
  refine ⟨hv.sound, hv.major.notTri, hno, ?_⟩
  rw [hl]
  cases ha : a.layout with
  | rowMajor l =>
    simp only [blockLayout, tight, Honest]
    constructor
    · intro hh
      by_cases hd1 : d.1 = 1
      · exact .inl hd1
      · exact .inr (hh.1 (by omega) (by omega)).symm
    · rintro (hh | hh)
      · exact ⟨by omega, fun _ _ => trivial⟩
      · exact ⟨fun _ _ => hh.symm, fun _ _ => trivial⟩
  | columnMajor l =>
    simp only [blockLayout, tight, Honest]
    constructor
    · intro hh
      by_cases hd1 : d.2 = 1
      · exact .inl hd1
      · exact .inr (hh.2 (by omega) (by omega)).symm
    · rintro (hh | hh)
      · exact ⟨fun _ _ => trivial, by omega⟩
      · exact ⟨fun _ _ => trivial, fun _ _ => hh.symm⟩
  | _ => simp [ha, IsMajor, Contiguous] at hm hc

/-- Rows 1 and 2 of a 4 × 4 matrix as first operand: correct. -/
example : ∃ blk, exFour.block dbg (1, 0) (2, 4) = .ok blk ∧ Honest blk.layout :=
  ⟨⟨⟨0, 4, 8⟩, .asRowMajor ⟨(2, 4), (4, 1)⟩, .dynamic, .dynamic⟩, by decide,
    by simp [Honest]⟩
example : ∃ blk, exFour.block dbg (1, 0) (2, 3) = .ok blk ∧ ¬ Honest blk.layout :=
  ⟨⟨⟨0, 4, 7⟩, .asRowMajor ⟨(2, 3), (4, 1)⟩, .dynamic, .dynamic⟩, by decide,
    by simp [Honest]⟩

/-! ## C46 -/

/-- The address that `matmul` gives the kernel for element `(i, j)`, in elements from the start of
the container. -/
def kernelAddress [Target] (s : Nat × Nat) (i j : Nat) : Int :=
  i * asIsize s.1 + j * asIsize s.2

/-- The full statement of C46. -/
def C46_statement [Target] : Prop :=
  ∀ (cfg : Cfg) (rs cs : SizeId) (d : Container) (l : Layout) (m : BaseMatrix) (s : Nat × Nat),
    IsMajor l ∨ (∃ v, l = .rowVector v) ∨ (∃ v, l = .columnVector v) → d.len * 4 ≤ isizeMax →
    from_data cfg rs cs d l = .ok m → m.layout.stride = .ok s → ∀ i j, i < l.dim.1 → j < l.dim.2 →
    0 ≤ kernelAddress s i j ∧ kernelAddress s i j < d.len

/-- **C46 is false of the code** in release builds: a `W/2 × 2` matrix is accepted over an empty
container. -/
theorem C46_false [Target] : ¬ C46_statement := by
  intro h
  have := h rel .dynamic .dynamic ⟨0, 0, 0⟩ (.rowMajor ⟨(W / 2, 2)⟩)
    ⟨⟨0, 0, 0⟩, .rowMajor ⟨(W / 2, 2)⟩, .dynamic, .dynamic⟩ (2, 1) (.inl trivial)
    (by decide_width) (by decide_width) rfl 0 0 (by decide_width) (by decide_width)
  simp [kernelAddress] at this

/-- **C46, partial**: with overflow checks, or when the element count is representable, every
address given to the kernel for an operand that `from_data` accepted lies in its container, for
row- and column-major layouts with any strides, and contiguous vectors. Missing: wrapping counts in
release builds (`C46_false`). -/
theorem C46_partial [Target] (cfg : Cfg) (rs cs : SizeId) (d : Container) (l : Layout) (m : BaseMatrix)
    (s : Nat × Nat)
    (hl : IsMajor l ∨ (∃ v, l = .rowVector v) ∨ ∃ v, l = .columnVector v)
    (hlen : d.len * 4 ≤ isizeMax) (hmode : cfg.overflowChecks = true ∨ count l < W)
    (h : from_data cfg rs cs d l = .ok m) (hs : m.layout.stride = .ok s) (i j : Nat)
    (hi : i < l.dim.1) (hj : j < l.dim.2) :
    0 ≤ kernelAddress s i j ∧ kernelAddress s i j < d.len := by
  have hl' : NotStridedVector l := hl
  have ht : TriFits l := by
    cases l with
    | upperTriangular u => exact absurd rfl (hl'.notTri u)
    | _ => trivial
  obtain ⟨rfl, hn⟩ := from_data_ok h (hmode.imp id fun h => ⟨h, ht⟩)
  rw [stride_claimed hl'.notTri] at hs
  obtain rfl : claimed l = s := by simpa using hs
  have hS : SeenIn (⟨d, l, rs, cs⟩ : BaseMatrix) (⟨List.replicate (d.buf + 1)
      (List.replicate (d.off + d.len) (0 : Nat))⟩ : Mem Nat) :=
    hl'.seenIn ⟨by simp [Mem.size], hlen⟩ hn
  have h1 := hS.addr hi hj
  have h2 := hS.inside i j hi hj
  simp only [gemmAddr, BaseMatrix.get_pointer, Container.get_pointer, Nat.cast_zero,
    zero_add] at h1
  simp only [kernelAddress, h1]
  exact ⟨Int.natCast_nonneg _, by exact_mod_cast h2⟩

/-- **C46**, consequence: on such operands, whatever their strides, `matmul` is not undefined if no
cell of `c`'s container is in the container of `a` or `b`: it finishes, or panics on wrong
shapes. -/
theorem C46_defined_partial [Target] (kern : Kern α) (alpha beta : α) (a b c : BaseMatrix) (mem : Mem α)
    (ha : Sound a mem) (hb : Sound b mem) (hc : Sound c mem)
    (hta : NotTriangular a.layout) (htb : NotTriangular b.layout) (htc : NotTriangular c.layout)
    (hna : NonOverlapping a.layout) (hnb : NonOverlapping b.layout) (hnc : NonOverlapping c.layout)
    (hca : ¬ Share c a) (hcb : ¬ Share c b) :
    matmul kern alpha a b beta c mem ≠ .ub := by
  by_cases hd : Compatible a.layout b.layout c.layout
  · have sa := (ha.seen_ok hta hna).1
    have sb := (hb.seen_ok htb hnb).1
    have sc := hc.seen_ok htc hnc
    have hin : ∀ x : BaseMatrix, SeenIn x mem → ∀ i j, i < x.layout.dim.1 → j < x.layout.dim.2 →
        InWindow (seen x i j) x := by
      intro x hx i j hi hj
      have := hx.inside i j hi hj
      exact ⟨rfl, by simp only [seen]; omega, by simp only [seen]; omega⟩
    have hget : ∀ x : BaseMatrix, SeenIn x mem → ∀ i j, i < x.layout.dim.1 → j < x.layout.dim.2 →
        mem.get? (seen x i j) = some ((mem.get? (seen x i j)).getD alpha) := by
      intro x hx i j hi hj
      obtain ⟨v, hv⟩ := Mem.get?_isSome_iff.2 (hx.lt hi hj)
      simp [hv]
    obtain ⟨mem', e, -⟩ := matmul_seen (kern := kern) (alpha := alpha) (beta := beta)
      sa sb sc.1 hd sc.2
      (fun i j i' j' h1 h2 h3 h4 e => hca ⟨_, hin c sc.1 i j h1 h2, e ▸ hin a sa i' j' h3 h4⟩)
      (fun i j i' j' h1 h2 h3 h4 e => hcb ⟨_, hin c sc.1 i j h1 h2, e ▸ hin b sb i' j' h3 h4⟩)
      (hget a sa) (hget b sb) (hget c sc.1)
    rw [e]; simp
  · rw [(C42_dimensions kern alpha beta a b c hta htb htc).1 hd mem]
    simp

example : from_data dbg .dynamic .dynamic ⟨0, 2, 4⟩ (.asRowMajor ⟨(2, 2), (100, 7)⟩) =
      .ok ⟨⟨0, 2, 4⟩, .asRowMajor ⟨(2, 2), (100, 7)⟩, .dynamic, .dynamic⟩ ∧
    kernelAddress (2, 1) 1 1 = 3 := by
  decide
/-- A strided vector is different: its true stride goes to the kernel. -/
example : from_data dbg .dynamic .fixed1 ⟨0, 0, 6⟩ (.asColumnVector ⟨3, 10⟩) =
      .ok ⟨⟨0, 0, 6⟩, .asColumnVector ⟨3, 10⟩, .dynamic, .fixed1⟩ ∧
    matmul exactKern 1 exA ⟨⟨0, 0, 6⟩, .asColumnVector ⟨3, 10⟩, .dynamic, .fixed1⟩ 0 exW exMemP = .ub :=
  by decide

/-! ## C47 -/

/-- Nothing that the kernel takes for an element of `x` does it take for an element of `y`. -/
def KernelApart (x y : BaseMatrix) : Prop :=
  ∀ i j i' j', i < x.layout.dim.1 → j < x.layout.dim.2 → i' < y.layout.dim.1 →
    j' < y.layout.dim.2 → seen x i j ≠ seen y i' j'

/-- The full statement of C47. -/
def C47_statement [Target] : Prop :=
  ∀ (cfg : Cfg) (m : BaseMatrix) (mem : Mem Int) (R C : Nat) (s : Nat × Nat)
    (q : BaseMatrix × BaseMatrix × BaseMatrix × BaseMatrix) (ka kb kc : Fin 4), Sound m mem →
    m.layout = .rowMajor ⟨(R, C)⟩ → m.split_in_four_mut cfg s = .ok q → kc ≠ ka → kc ≠ kb →
    matmul exactKern 1 (quad q ka) (quad q kb) 0 (quad q kc) mem ≠ .ub

/-- **C47 is false of the code**: after splitting a 4 × 4 matrix at `(2, 2)`, multiplying the top
left and bottom right parts into the top right part gives the kernel two operands that alias, a
mutable and an immutable one. -/
theorem C47_false [Target] : ¬ C47_statement := by
  intro h
  exact h dbg exFour exMem4 4 4 (2, 2)
    (⟨⟨0, 0, 6⟩, .asRowMajor ⟨(2, 2), (4, 1)⟩, .dynamic, .dynamic⟩,
     ⟨⟨0, 2, 6⟩, .asRowMajor ⟨(2, 2), (4, 1)⟩, .dynamic, .dynamic⟩,
     ⟨⟨0, 8, 6⟩, .asRowMajor ⟨(2, 2), (4, 1)⟩, .dynamic, .dynamic⟩,
     ⟨⟨0, 10, 6⟩, .asRowMajor ⟨(2, 2), (4, 1)⟩, .dynamic, .dynamic⟩) 0 3 1 exFour_sound rfl
    (by decide_width) (by decide_width) (by decide_width) (by decide_width)

theorem seen_interval {m : BaseMatrix} (h : NotStridedVector m.layout) (x : Nat) :
    (∃ i j, i < m.layout.dim.1 ∧ j < m.layout.dim.2 ∧ seen m i j = ⟨m.data.buf, m.data.off + x⟩) ↔
      x < count m.layout := by
  constructor
  · rintro ⟨i, j, hi, hj, e⟩
    have h1 := h.index hi hj
    have h2 : index m.layout i j < count m.layout :=
      index_lt ((stored_of_notTri h.notTri).2 ⟨hi, hj⟩)
    simp only [seen, Loc.mk.injEq, true_and] at e
    omega
  · intro hx
    obtain ⟨i, j, hs, rfl⟩ := exists_index hx
    exact ⟨i, j, hs.1, hs.2.1, by simp only [seen]; rw [h.index hs.1 hs.2.1]⟩

theorem kernelApart_iff {x y : BaseMatrix} (hx : NotStridedVector x.layout)
    (hy : NotStridedVector y.layout) (hb : x.data.buf = y.data.buf) :
    KernelApart x y ↔ ∀ z, ¬ (x.data.off ≤ z ∧ z < x.data.off + count x.layout ∧
      y.data.off ≤ z ∧ z < y.data.off + count y.layout) := by
  constructor
  · rintro h z ⟨h1, h2, h3, h4⟩
    obtain ⟨i, j, hi, hj, e⟩ := (seen_interval hx (z - x.data.off)).2 (by omega)
    obtain ⟨i', j', hi', hj', e'⟩ := (seen_interval hy (z - y.data.off)).2 (by omega)
    apply h i j i' j' hi hj hi' hj'
    rw [e, e', hb, show x.data.off + (z - x.data.off) = y.data.off + (z - y.data.off) by omega]
  · intro h i j i' j' hi hj hi' hj' e
    have h1 := hx.index hi hj
    have h2 : index x.layout i j < count x.layout :=
      index_lt ((stored_of_notTri hx.notTri).2 ⟨hi, hj⟩)
    have h3 := hy.index hi' hj'
    have h4 : index y.layout i' j' < count y.layout :=
      index_lt ((stored_of_notTri hy.notTri).2 ⟨hi', hj'⟩)
    simp only [seen, Loc.mk.injEq] at e
    exact h (x.data.off + index x.layout i j) (by omega)

theorem KernelApart.symm {x y : BaseMatrix} (h : KernelApart x y) : KernelApart y x :=
  fun i j i' j' h1 h2 h3 h4 e => h i' j' i j h3 h4 h1 h2 e.symm

/-- `matmul` on operands that can be given to the kernel is undefined exactly when the result
aliases an input. -/
theorem matmul_ub_iff [Target] {kern : Kern α} {alpha beta : α} {a b c : BaseMatrix} {mem : Mem α}
    (ha : Sound a mem) (hb : Sound b mem) (hc : Sound c mem)
    (hta : NotTriangular a.layout) (htb : NotTriangular b.layout) (htc : NotTriangular c.layout)
    (hna : NonOverlapping a.layout) (hnb : NonOverlapping b.layout) (hnc : NonOverlapping c.layout)
    (hd : Compatible a.layout b.layout c.layout) :
    matmul kern alpha a b beta c mem = .ub ↔ ¬ KernelApart c a ∨ ¬ KernelApart c b := by
  have sa := (ha.seen_ok hta hna).1
  have sb := (hb.seen_ok htb hnb).1
  have sc := hc.seen_ok htc hnc
  constructor
  · intro e
    by_contra hcon
    obtain ⟨hca, hcb⟩ : KernelApart c a ∧ KernelApart c b := by
      by_cases h : KernelApart c a
      · by_cases h' : KernelApart c b
        · exact ⟨h, h'⟩
        · exact absurd (.inr h') hcon
      · exact absurd (.inl h) hcon
    have hget : ∀ x : BaseMatrix, SeenIn x mem → ∀ i j, i < x.layout.dim.1 → j < x.layout.dim.2 →
        mem.get? (seen x i j) = some ((mem.get? (seen x i j)).getD alpha) := by
      intro x hx i j hi hj
      obtain ⟨v, hv⟩ := Mem.get?_isSome_iff.2 (hx.lt hi hj)
      simp [hv]
    obtain ⟨mem', e', -⟩ := matmul_seen (kern := kern) (alpha := alpha) (beta := beta)
      sa sb sc.1 hd sc.2 hca hcb (hget a sa) (hget b sb) (hget c sc.1)
    rw [e] at e'
    simp at e'
  · intro h
    unfold matmul
    simp only [Out.assert_pos (show _ ∧ _ from hd), Out.bind_ok, stride_claimed hta,
      stride_claimed htb, stride_claimed htc]
    unfold gemm
    rw [if_neg]
    intro hpre
    obtain ⟨d1, d2, d3⟩ := hd
    obtain ⟨-, -, -, -, p1, p2⟩ := hpre
    rcases h with h | h
    · refine h fun i j i' j' hi hj hi' hj' e => ?_
      refine p1 i (by omega) j (by omega) i' hi' j' hj' ?_
      rw [sc.1.loc hi hj, sa.loc hi' hj', e]
    · refine h fun i j i' j' hi hj hi' hj' e => ?_
      refine p2 i (by omega) j (by omega) i' (by omega) j' hj' ?_
      rw [sc.1.loc hi hj, sb.loc hi' hj', e]

/-- **C47, partial**: exactly which parts of a split matrix the kernel confuses. Parts of different
halves (top, bottom) never; the two parts of the same half exactly if it has two or more rows.
Hence multiplying parts is undefined exactly if the result is in the same half, of two or more rows,
as one of the factors. Missing: these cases (`C47_false`). -/
theorem C47_partial [Target] (cfg : Cfg) (kern : Kern α) (alpha beta : α) (m : BaseMatrix) (mem : Mem α)
    (h : Sound m mem) (R C : Nat) (hl : m.layout = .rowMajor ⟨(R, C)⟩) (s : Nat × Nat)
    (h1 : 0 < s.1) (h2 : s.1 < R) (h3 : 0 < s.2) (h4 : s.2 < C) :
    ∃ q, m.split_in_four_mut cfg s = .ok q ∧
      (∀ k k', k ≠ k' → (KernelApart (quad q k) (quad q k') ↔
        ((origin s k).1 = (origin s k').1 → (shape R C s k).1 = 1))) ∧
      ∀ ka kb kc, kc ≠ ka → kc ≠ kb →
        Compatible (quad q ka).layout (quad q kb).layout (quad q kc).layout →
        (matmul kern alpha (quad q ka) (quad q kb) beta (quad q kc) mem = .ub ↔
          2 ≤ (shape R C s kc).1 ∧
            ((origin s kc).1 = (origin s ka).1 ∨ (origin s kc).1 = (origin s kb).1)) := by
  obtain ⟨q, e, hb⟩ := split_blocks cfg h hl h1 h2 h3 h4
  have hm : IsMajor m.layout := by rw [hl]; trivial
  have hcon : Contiguous m.layout := by rw [hl]; trivial
  have hq : ∀ k, Sound (quad q k) mem ∧ NonOverlapping (quad q k).layout ∧
      (quad q k).layout = .asRowMajor ⟨shape R C s k, (C, 1)⟩ ∧
      (quad q k).data.buf = m.data.buf ∧
      (quad q k).data.off = m.data.off + ((origin s k).1 * C + (origin s k).2) := by
    intro k
    obtain ⟨hk, hf, f1, f2⟩ := hb k
    obtain ⟨b', e', hv, -, hlb, hd, hno, -⟩ := (view_of_contiguous h hm hcon).block cfg hf f1 f2
    rw [hk] at e'
    obtain rfl : quad q k = b' := by simpa using e'
    refine ⟨hv.sound, hno, by rw [hlb, hl]; rfl, by rw [hd], by rw [hd, hl]; rfl⟩
  have hmaj : ∀ k, IsMajor (quad q k).layout := fun k => by rw [(hq k).2.2.1]; trivial
  have key : ∀ k k', k ≠ k' → (KernelApart (quad q k) (quad q k') ↔
        ((origin s k).1 = (origin s k').1 → (shape R C s k).1 = 1)) := by
    intro k k' hne
    rw [kernelApart_iff (.inl (hmaj k)) (.inl (hmaj k')) (by rw [(hq k).2.2.2.1, (hq k').2.2.2.1]),
      (hq k).2.2.2.2, (hq k').2.2.2.2, (hq k).2.2.1, (hq k').2.2.1]
    simp only [count]
    obtain ⟨u, rfl⟩ : ∃ u, C = s.2 + u := ⟨C - s.2, by omega⟩
    obtain ⟨v, rfl⟩ : ∃ v, R = s.1 + v := ⟨R - s.1, by omega⟩
    have hsub1 : s.1 + v - s.1 = v := by omega
    have hsub2 : s.2 + u - s.2 = u := by omega
    have m1 : s.1 * (s.2 + u) = s.1 * s.2 + s.1 * u := Nat.mul_add _ _ _
    have m2 : s.2 ≤ s.1 * s.2 := Nat.le_mul_of_pos_left _ h1
    have m3 : s.2 ≤ v * s.2 := Nat.le_mul_of_pos_left _ (by omega)
    have m4 : 1 * u ≤ s.1 * u := Nat.mul_le_mul_right _ h1
    have m5 : 1 * u ≤ v * u := Nat.mul_le_mul_right _ (by omega)
    have m6 : 2 ≤ s.1 → 2 * s.2 ≤ s.1 * s.2 := fun h => Nat.mul_le_mul_right _ h
    have m7 : 2 ≤ v → 2 * s.2 ≤ v * s.2 := fun h => Nat.mul_le_mul_right _ h
    have m8 : s.1 = 1 → s.1 * s.2 = s.2 := fun h => by rw [h, one_mul]
    have m9 : v = 1 → v * s.2 = s.2 := fun h => by rw [h, one_mul]
    match k, k' with
    | 0, 0 | 1, 1 | 2, 2 | 3, 3 => exact absurd rfl hne
    | 0, 1 | 1, 0 =>
      simp only [origin, shape, true_implies, hsub2, zero_mul]
      constructor
      · intro hz
        by_contra h6
        have := m6 (by omega)
        exact hz (m.data.off + s.2) (by omega)
      · intro h6 z
        have := m8 h6
        omega
    | 2, 3 | 3, 2 =>
      simp only [origin, shape, true_implies, hsub1, hsub2]
      constructor
      · intro hz
        by_contra h6
        have := m7 (by omega)
        exact hz (m.data.off + (s.1 * (s.2 + u) + s.2)) (by omega)
      · intro h6 z
        have := m9 h6
        omega
    | 0, 2 | 0, 3 | 1, 2 | 1, 3 | 2, 0 | 3, 0 | 2, 1 | 3, 1 =>
      simp only [origin, shape, hsub1, hsub2, zero_mul]
      refine ⟨fun _ h0 => by omega, fun _ z => by omega⟩
  refine ⟨q, e, key, fun ka kb kc hka hkb hd => ?_⟩
  have hpos := (hb kc).2.2.1
  rw [matmul_ub_iff (hq ka).1 (hq kb).1 (hq kc).1 (hmaj ka).notTri (hmaj kb).notTri
    (hmaj kc).notTri (hq ka).2.1 (hq kb).2.1 (hq kc).2.1 hd, key kc ka hka, key kc kb hkb]
  simp only [Classical.not_imp]
  constructor
  · rintro (⟨a1, a2⟩ | ⟨a1, a2⟩)
    · exact ⟨by omega, .inl a1⟩
    · exact ⟨by omega, .inr a1⟩
  · rintro ⟨a1, a2 | a2⟩
    · exact .inl ⟨a2, by omega⟩
    · exact .inr ⟨a2, by omega⟩

/-- Bottom left times bottom left into top left: defined. -/
example : ∃ q, exFour.split_in_four_mut dbg (2, 2) = .ok q ∧
    matmul exactKern 1 (quad q 2) (quad q 2) 0 (quad q 0) exMem4 ≠ .ub ∧
    (matmul exactKern 1 (quad q 2) (quad q 2) 0 (quad q 3) exMem4) = .ub :=
  ⟨_, rfl, by decide, by decide⟩

/-! ## C48 -/

/-- The layout of a product. -/
def productLayout (i : DotImpl) (R C : Nat) : Layout :=
  match i with
  | .matMat => .rowMajor ⟨(R, C)⟩
  | .rowMat => .rowVector ⟨C⟩
  | .matCol => .columnVector ⟨R⟩

/-- What the vector impls require of their operands beyond the types: one row, one column. -/
def VectorShape (i : DotImpl) (a b : BaseMatrix) : Prop :=
  match i with
  | .matMat => True
  | .rowMat => a.layout.dim.1 = 1
  | .matCol => b.layout.dim.2 = 1

/-- The zero matrix that `dot` starts from. -/
def dotZeros [Target] [Zero α] (cfg : Cfg) (i : DotImpl) (R C : Nat) (mem : Mem α) :
    Out (BaseMatrix × Mem α) :=
  match i with
  | .matMat => zeros_from_dim cfg .rowMajor R C mem
  | .rowMat => RowVectorD.zeros_from_dim cfg R C mem
  | .matCol => ColumnVectorD.zeros_from_dim cfg R C mem

theorem dot_eq [Target] [Zero α] [One α] (cfg : Cfg) (kern : Kern α) (i : DotImpl) (a b : BaseMatrix)
    (mem : Mem α) : dot cfg kern i a b mem = do
      let x ← dotZeros cfg i a.layout.dim.1 b.layout.dim.2 mem
      let mem2 ← matmul kern 1 a b 0 x.1 x.2
      return (x.1, mem2) := by
  cases i <;> rfl

theorem dotZeros_ok [Target] [Zero α] (cfg : Cfg) (i : DotImpl) {a b : BaseMatrix} (hv : VectorShape i a b)
    (hsz : a.layout.dim.1 * b.layout.dim.2 * cfg.item.size ≤ isizeMax) (mem : Mem α) :
    ∃ R mem', dotZeros cfg i a.layout.dim.1 b.layout.dim.2 mem = .ok (R, mem') ∧
      R.layout = productLayout i a.layout.dim.1 b.layout.dim.2 ∧ ZeroMatrix R mem mem' := by
  cases i with
  | matMat =>
    obtain ⟨h1, h2⟩ := zeros_from_dim_ok cfg (k := .rowMajor) (rows := a.layout.dim.1)
      (cols := b.layout.dim.2) (l := .rowMajor ⟨(a.layout.dim.1, b.layout.dim.2)⟩) rfl trivial hsz mem
    exact ⟨_, _, h1, rfl, h2⟩
  | rowMat =>
    have hv : a.layout.dim.1 = 1 := hv
    rw [hv, one_mul] at hsz
    obtain ⟨h1, h2⟩ := zeros_row_ok cfg hsz mem
    exact ⟨_, _, by simp only [dotZeros]; rw [row_zeros_from_dim_eq, if_pos hv]; exact h1, rfl, h2⟩
  | matCol =>
    have hv : b.layout.dim.2 = 1 := hv
    rw [hv, mul_one] at hsz
    obtain ⟨h1, h2⟩ := zeros_col_ok cfg hsz mem
    exact ⟨_, _, by simp only [dotZeros]; rw [col_zeros_from_dim_eq, if_pos hv]; exact h1, rfl, h2⟩

/-- The zero matrix is never undefined, and has the layout of the product. -/
theorem dotZeros_cases [Target] [Zero α] (cfg : Cfg) (i : DotImpl) (R C : Nat) (mem : Mem α) :
    dotZeros cfg i R C mem = .panic ∨ ∃ m mem', dotZeros cfg i R C mem = .ok (m, mem') ∧
      m.layout = productLayout i R C := by
  have key : ∀ (rs cs : SizeId) (l : Layout),
      ((do
        let n ← l.number_of_elements cfg
        let x ← Container.newVector cfg mem n
        let m ← from_data cfg rs cs x.1 l
        return (m, x.2)) : Out (BaseMatrix × Mem α)) = .panic ∨
      ∃ m mem', ((do
        let n ← l.number_of_elements cfg
        let x ← Container.newVector cfg mem n
        let m ← from_data cfg rs cs x.1 l
        return (m, x.2)) : Out (BaseMatrix × Mem α)) = .ok (m, mem') ∧ m.layout = l := by
    intro rs cs l
    cases hn : l.number_of_elements cfg with
    | ub => exact absurd hn (number_of_elements_ne_ub cfg l)
    | panic => left; rfl
    | ok n =>
      simp only [Out.bind_ok, Container.newVector]
      split
      · simp only [Out.bind_ok, from_data, BaseMatrix.new, hn]
        by_cases hle : n ≤ Container.number_of_elements ⟨(mem.alloc (List.replicate n 0)).1, 0, n⟩
        · right
          rw [Out.assert_pos hle]
          exact ⟨_, _, rfl, rfl⟩
        · left
          rw [Out.assert_neg hle]
          rfl
      · left; rfl
  cases i with
  | matMat =>
    exact key .dynamic .dynamic (.rowMajor ⟨(R, C)⟩)
  | rowMat =>
    simp only [dotZeros, row_zeros_from_dim_eq]
    split
    · exact key .fixed1 .dynamic (.rowVector ⟨C⟩)
    · left; rfl
  | matCol =>
    simp only [dotZeros, col_zeros_from_dim_eq]
    split
    · exact key .dynamic .fixed1 (.columnVector ⟨R⟩)
    · left; rfl

theorem productLayout_props (i : DotImpl) (R C : Nat) :
    Contiguous (productLayout i R C) ∧ NotTriangular (productLayout i R C) ∧
      Honest (productLayout i R C) := by
  cases i <;> exact ⟨trivial, fun u h => by simp [productLayout] at h, trivial⟩

theorem productLayout_dim {i : DotImpl} {a b : BaseMatrix} (hv : VectorShape i a b) :
    (productLayout i a.layout.dim.1 b.layout.dim.2).dim = (a.layout.dim.1, b.layout.dim.2) := by
  cases i with
  | matMat => rfl
  | rowMat => exact Prod.ext_iff.2 ⟨(show a.layout.dim.1 = 1 from hv).symm, rfl⟩
  | matCol => exact Prod.ext_iff.2 ⟨rfl, (show b.layout.dim.2 = 1 from hv).symm⟩

/-- A new matrix over its own storage, with everything else as it was. -/
structure NewMatrix [Target] (R : BaseMatrix) (mem mem' : Mem α) : Prop where
  sound : Sound R mem'
  fresh : Fresh R mem
  ext : Extends mem mem'

/-- `dot` with any kernel. -/
theorem dot_kern [Target] [Zero α] [One α] {cfg : Cfg} (kern : Kern α) {i : DotImpl}
    {a b : BaseMatrix} {mem : Mem α}
    (ha : Sound a mem) (hb : Sound b mem) (hoa : Honest a.layout) (hob : Honest b.layout)
    (hk : a.layout.dim.2 = b.layout.dim.1) (hv : VectorShape i a b)
    (hsz : a.layout.dim.1 * b.layout.dim.2 * cfg.item.size ≤ isizeMax) {A B : Arr α}
    (hA : Represents a mem A) (hB : Represents b mem B) :
    ∃ R mem', dot cfg kern i a b mem = .ok (R, mem') ∧
      R.layout = productLayout i a.layout.dim.1 b.layout.dim.2 ∧ NewMatrix R mem mem' ∧
      Represents R mem' (fun r c => kern ⟨a.layout.dim.1, b.layout.dim.2, r, c⟩ 1
        ((List.range a.layout.dim.2).map fun l => (A r l, B l c)) 0 0) := by
  obtain ⟨R, mem1, e1, hl, hz⟩ := dotZeros_ok cfg i hv hsz mem
  obtain ⟨p1, p2, p3⟩ := productLayout_props i a.layout.dim.1 b.layout.dim.2
  have hdim := productLayout_dim hv
  rw [← hl] at p1 p2 p3 hdim
  have hsep : ∀ x : BaseMatrix, Sound x mem → Separate R x := by
    intro x hx r c r' c' _ hs' e
    have h1 := cell_buf_lt hx hs'
    have h2 : mem.bufs.length ≤ R.data.buf := hz.fresh
    have h3 : R.data.buf = x.data.buf := congrArg Loc.buf e
    omega
  obtain ⟨mem2, e2, hf, hr⟩ := matmul_honest (kern := kern) (alpha := 1) (beta := 0)
    (hz.ext.sound ha) (hz.ext.sound hb) hz.sound hoa hob p3 (contiguous_nonOverlapping p1)
    ⟨hk, by rw [hdim], by rw [hdim]⟩ (hsep a ha) (hsep b hb)
    (A := A) (B := B) (C := fun _ _ => 0)
    (fun r c hs => by rw [hz.ext.elem ha hs]; exact hA r c hs)
    (fun r c hs => by rw [hz.ext.elem hb hs]; exact hB r c hs)
    (fun r c hs => hz.zero r c hs)
  refine ⟨R, mem2, ?_, hl, ⟨hz.sound.mono (by rw [hf.size]), hz.fresh,
    hf.extends hz.ext hz.fresh⟩, ?_⟩
  · rw [dot_eq, e1]
    simp only [Out.bind_ok, e2]
    rfl
  · rw [hdim] at hr
    exact hr

/-- `dot` in terms of arrays. -/
theorem dot_represents [Target] [Semiring α] {cfg : Cfg} {i : DotImpl} {a b : BaseMatrix} {mem : Mem α}
    (ha : Sound a mem) (hb : Sound b mem) (hoa : Honest a.layout) (hob : Honest b.layout)
    (hk : a.layout.dim.2 = b.layout.dim.1) (hv : VectorShape i a b)
    (hsz : a.layout.dim.1 * b.layout.dim.2 * cfg.item.size ≤ isizeMax) {A B : Arr α}
    (hA : Represents a mem A) (hB : Represents b mem B) :
    ∃ R mem', dot cfg exactKern i a b mem = .ok (R, mem') ∧
      R.layout = productLayout i a.layout.dim.1 b.layout.dim.2 ∧ NewMatrix R mem mem' ∧
      Represents R mem' (fun r c => ∑ l ∈ Finset.range a.layout.dim.2, A r l * B l c) := by
  obtain ⟨R, mem', h1, h2, h3, h4⟩ := dot_kern exactKern ha hb hoa hob hk hv hsz hA hB
  exact ⟨R, mem', h1, h2, h3, by simpa only [exactKern_eq, one_mul, zero_mul, add_zero] using h4⟩

/-- **C48.** `a.dot(&b)` for each of the three combinations (matrix × matrix, row vector × matrix,
matrix × column vector), with operands of any layout that reports the strides it has:

* panics when the inner dimensions differ, or when a "row vector" has not one row or a "column
  vector" not one column, whatever else holds;
* otherwise, if the result can be allocated, returns a new matrix of shape `(a.rows, b.cols)`, with
  elements `Σₗ a(i,l) * b(l,j)`, in new storage, and nothing that existed has changed. -/
theorem C48_dot [Target] [Semiring α] (cfg : Cfg) (i : DotImpl) (a b : BaseMatrix) (mem : Mem α)
    (ha : Sound a mem) (hb : Sound b mem) (hoa : Honest a.layout) (hob : Honest b.layout)
    (A B : Arr α)
    (hA : ∀ r l, r < a.layout.dim.1 → l < a.layout.dim.2 → a.get cfg mem r l = .ok (A r l))
    (hB : ∀ l c, l < b.layout.dim.1 → c < b.layout.dim.2 → b.get cfg mem l c = .ok (B l c)) :
    (a.layout.dim.2 ≠ b.layout.dim.1 → dot cfg exactKern i a b mem = .panic) ∧
    (i = .rowMat ∧ a.layout.dim.1 ≠ 1 ∨ i = .matCol ∧ b.layout.dim.2 ≠ 1 →
      dot cfg exactKern i a b mem = .panic) ∧
    (a.layout.dim.2 = b.layout.dim.1 → (i = .rowMat → a.layout.dim.1 = 1) →
      (i = .matCol → b.layout.dim.2 = 1) →
      a.layout.dim.1 * b.layout.dim.2 * cfg.item.size ≤ isizeMax →
      ∃ R mem', dot cfg exactKern i a b mem = .ok (R, mem') ∧
        R.layout.dim = (a.layout.dim.1, b.layout.dim.2) ∧
        (match i with
          | .matMat => R.layout = .rowMajor ⟨(a.layout.dim.1, b.layout.dim.2)⟩
          | .rowMat => R.layout = .rowVector ⟨b.layout.dim.2⟩
          | .matCol => R.layout = .columnVector ⟨a.layout.dim.1⟩) ∧
        Sound R mem' ∧ mem.bufs.length ≤ R.data.buf ∧
        (∀ q : Loc, q.buf < mem.bufs.length → mem'.get? q = mem.get? q) ∧
        ∀ r c, r < a.layout.dim.1 → c < b.layout.dim.2 →
          R.get cfg mem' r c = .ok (∑ l ∈ Finset.range a.layout.dim.2, A r l * B l c)) := by
  refine ⟨fun hk => ?_, fun hv => ?_, fun hk hv1 hv2 hsz => ?_⟩
  · rw [dot_eq]
    rcases dotZeros_cases cfg i a.layout.dim.1 b.layout.dim.2 mem with e | ⟨m, mem1, e, hl⟩
    · rw [e]; rfl
    · have ht := (productLayout_props i a.layout.dim.1 b.layout.dim.2).2.1
      rw [← hl] at ht
      rw [e, Out.bind_ok, (C42_dimensions exactKern 1 0 a b m hoa.notTri hob.notTri ht).1
        (fun h => hk h.1) mem1]
      rfl
  · rw [dot_eq]
    rcases hv with ⟨rfl, h⟩ | ⟨rfl, h⟩
    · simp only [dotZeros, row_zeros_from_dim_eq, if_neg h, Out.bind_panic]
    · simp only [dotZeros, col_zeros_from_dim_eq, if_neg h, Out.bind_panic]
  · have hv : VectorShape i a b := by
      cases i with
      | matMat => trivial
      | rowMat => exact hv1 rfl
      | matCol => exact hv2 rfl
    obtain ⟨R, mem', e, hl, hnew, hr⟩ := dot_represents (cfg := cfg) ha hb hoa hob hk hv hsz
      ((represents_get ha cfg).2 fun r c hs => hA r c hs.1 hs.2.1)
      ((represents_get hb cfg).2 fun r c hs => hB r c hs.1 hs.2.1)
    have hdim : R.layout.dim = (a.layout.dim.1, b.layout.dim.2) := by
      rw [hl, productLayout_dim hv]
    refine ⟨R, mem', e, hdim, ?_, hnew.sound, hnew.fresh, hnew.ext.2, fun r c hr' hc' => ?_⟩
    · cases i <;> exact hl
    · refine (represents_get hnew.sound cfg).1 hr r c ?_
      refine (stored_of_notTri ?_).2 (by rw [hdim]; exact ⟨hr', hc'⟩)
      rw [hl]; exact (productLayout_props i _ _).2.1

/-- A column vector of size 3 as the second operand. -/
def exColB : BaseMatrix := ⟨⟨1, 0, 6⟩, .columnVector ⟨3⟩, .dynamic, .fixed1⟩
def exRowA : BaseMatrix := ⟨⟨0, 1, 2⟩, .rowVector ⟨2⟩, .fixed1, .dynamic⟩

example : dotImpl exA exB = some .matMat ∧ dotImpl exA exColB = some .matCol ∧
    dotImpl exRowA exA = some .rowMat ∧ dotImpl exColB exRowA = none := by decide
example : dot dbg exactKern .matMat exA exB exMemP =
    .ok (⟨⟨4, 0, 4⟩, .rowMajor ⟨(2, 2)⟩, .dynamic, .dynamic⟩,
      ⟨exMemP.bufs ++ [[7, 5, 16, 11]]⟩) := by decide
example : dot dbg exactKern .matCol exA exColB exMemP =
    .ok (⟨⟨4, 0, 2⟩, .columnVector ⟨2⟩, .dynamic, .fixed1⟩, ⟨exMemP.bufs ++ [[7, 16]]⟩) := by decide
example : dot dbg exactKern .rowMat exRowA exA exMemP =
    .ok (⟨⟨4, 0, 3⟩, .rowVector ⟨3⟩, .fixed1, .dynamic⟩, ⟨exMemP.bufs ++ [[14, 19, 24]]⟩) := by decide
example : dot dbg exactKern .matMat exA exA exMemP = .panic ∧
    dot dbg exactKern .rowMat exA exB exMemP = .panic := by decide

theorem isStrided_iff {l : Layout} : l.isStrided = true ↔ NotTriangular l := by
  cases l <;> simp [Layout.isStrided, NotTriangular]

/-- **C42**, types: `matmul` exists exactly when no operand is triangular, both inner sizes are
dynamic, at most one of the outer sizes is fixed to 1 and the result has the outer sizes of the
factors. -/
theorem C42_types (a b c : BaseMatrix) :
    matmulImpl a b c = true ↔
      (NotTriangular a.layout ∧ NotTriangular b.layout ∧ NotTriangular c.layout) ∧
      a.cs = .dynamic ∧ b.rs = .dynamic ∧ c.rs = a.rs ∧ c.cs = b.cs ∧
      ((a.rs = .dynamic ∨ a.rs = .fixed1) ∧ b.cs = .dynamic ∨ a.rs = .dynamic ∧ b.cs = .fixed1) := by
  unfold matmulImpl
  simp only [Bool.and_eq_true, isStrided_iff, and_assoc, and_congr_right_iff]
  intro _ _ _
  cases a.rs <;> cases a.cs <;> cases b.rs <;> cases b.cs <;> cases c.rs <;> cases c.cs <;> simp

/-- A product of dynamic matrices, one into a column vector; none for a triangular factor. -/
example : matmulImpl exA exB exB = true ∧ matmulImpl exA exColB exColB = true ∧
    matmulImpl exA exColB exB = false ∧
    matmulImpl ⟨⟨0, 0, 3⟩, .upperTriangular ⟨2⟩, .dynamic, .dynamic⟩ exB exB = false := by decide

/-- **C48**, types: `dot` exists exactly when neither operand is triangular, both inner sizes are dynamic and at most one of the
outer sizes is fixed to 1, and whatever it returns has the outer sizes of its operands: a row vector
in the layout of a row vector, a column vector in that of a column vector, and a matrix in row-major
layout otherwise. -/
theorem C48_types [Target] [Zero α] [One α] (cfg : Cfg) (kern : Kern α) (a b : BaseMatrix) (mem : Mem α) :
    ((dotImpl a b).isSome ↔ NotTriangular a.layout ∧ NotTriangular b.layout ∧ a.cs = .dynamic ∧ b.rs = .dynamic ∧
      ((a.rs = .dynamic ∨ a.rs = .fixed1) ∧ b.cs = .dynamic ∨ a.rs = .dynamic ∧ b.cs = .fixed1)) ∧
    ∀ i R mem', dotImpl a b = some i → dot cfg kern i a b mem = .ok (R, mem') →
      R.rs = a.rs ∧ R.cs = b.cs ∧
      (a.rs = .fixed1 → ∃ n, R.layout = .rowVector ⟨n⟩) ∧
      (b.cs = .fixed1 → ∃ n, R.layout = .columnVector ⟨n⟩) ∧
      (a.rs = .dynamic → b.cs = .dynamic → ∃ d, R.layout = .rowMajor ⟨d⟩) := by
  constructor
  · unfold dotImpl
    rw [← isStrided_iff, ← isStrided_iff]
    cases a.layout.isStrided <;> cases b.layout.isStrided <;> cases a.rs <;> cases a.cs <;>
      cases b.rs <;> cases b.cs <;> simp
  · intro i R mem' hi hd
    have hs : ∀ {rs cs d l m}, from_data cfg rs cs d l = .ok m →
        m.rs = rs ∧ m.cs = cs ∧ m.layout = l := by
      intro rs cs d l m h
      simp only [from_data, BaseMatrix.new, Out.bind_eq_ok, Out.pure_eq] at h
      obtain ⟨_, _, _, _, h⟩ := h
      cases h; exact ⟨rfl, rfl, rfl⟩
    unfold dotImpl at hi
    replace hi := (Option.ite_none_right_eq_some.1 hi).2
    cases i with
    | matMat =>
      simp only [dot, dot_mm, zeros_from_dim, BaseKind.from_dimension, RowMajor.from_dimension,
        Out.bind_eq_ok, Out.pure_eq] at hd
      obtain ⟨x, ⟨l, hl, n, hn, d, -, l', hl', m, hm, hx⟩, y, -, h⟩ := hd
      obtain ⟨w, hw, hl'⟩ := hl'
      cases hw; cases hl'; cases h; cases hx
      obtain ⟨e1, e2, e3⟩ := hs hm
      replace e3 : ∃ d, m.layout = .rowMajor ⟨d⟩ := ⟨_, e3⟩
      rcases ha : a.rs with _ | _ | _ | _ <;> rcases ha' : a.cs with _ | _ | _ | _ <;>
        rcases hb : b.rs with _ | _ | _ | _ <;> rcases hb' : b.cs with _ | _ | _ | _ <;>
        simp_all
    | rowMat =>
      simp only [dot, dot_vm, RowVectorD.zeros_from_dim, Out.bind_eq_ok, Out.pure_eq] at hd
      obtain ⟨x, ⟨_, _, d, -, m, hm, hx⟩, y, -, h⟩ := hd
      cases h; cases hx
      obtain ⟨e1, e2, e3⟩ := hs hm
      rcases ha : a.rs with _ | _ | _ | _ <;> rcases ha' : a.cs with _ | _ | _ | _ <;>
        rcases hb : b.rs with _ | _ | _ | _ <;> rcases hb' : b.cs with _ | _ | _ | _ <;>
        simp_all [RowVector.from_length]
    | matCol =>
      simp only [dot, dot_mv, ColumnVectorD.zeros_from_dim, Out.bind_eq_ok, Out.pure_eq] at hd
      obtain ⟨x, ⟨_, _, d, -, m, hm, hx⟩, y, -, h⟩ := hd
      cases h; cases hx
      obtain ⟨e1, e2, e3⟩ := hs hm
      rcases ha : a.rs with _ | _ | _ | _ <;> rcases ha' : a.cs with _ | _ | _ | _ <;>
        rcases hb : b.rs with _ | _ | _ | _ <;> rcases hb' : b.cs with _ | _ | _ | _ <;>
        simp_all [ColumnVector.from_length]

/-- Results that cannot be allocated: with overflow checks `dot` panics. -/
theorem C48_unallocatable [Target] [Semiring α] (cfg : Cfg) (i : DotImpl) (a b : BaseMatrix) (mem : Mem α)
    (hv : VectorShape i a b) (hc : cfg.overflowChecks = true)
    (hsz : ¬ a.layout.dim.1 * b.layout.dim.2 * cfg.item.size ≤ isizeMax) :
    dot cfg exactKern i a b mem = .panic := by
  have hz : dotZeros cfg i a.layout.dim.1 b.layout.dim.2 mem = .panic := by
    cases i with
    | matMat =>
      have hfd : BaseKind.rowMajor.from_dimension (a.layout.dim.1, b.layout.dim.2) =
        .ok (.rowMajor ⟨(a.layout.dim.1, b.layout.dim.2)⟩) := rfl
      simp only [dotZeros, zeros_from_dim, hfd, Out.bind_ok]
      cases hn : (Layout.rowMajor ⟨(a.layout.dim.1, b.layout.dim.2)⟩).number_of_elements cfg with
      | ub => exact absurd hn (number_of_elements_ne_ub cfg _)
      | panic => rfl
      | ok n =>
        have := (number_of_elements_exact hc hn).1
        simp only [count] at this
        subst this
        simp [Container.newVector, hsz]
    | rowMat =>
      have hv : a.layout.dim.1 = 1 := hv
      rw [hv, one_mul] at hsz
      simp only [dotZeros, row_zeros_from_dim_eq, if_pos hv, RowVectorD.zeros_from_length,
        Container.newVector, if_neg hsz, Out.bind_panic]
    | matCol =>
      have hv : b.layout.dim.2 = 1 := hv
      rw [hv, mul_one] at hsz
      simp only [dotZeros, col_zeros_from_dim_eq, if_pos hv, ColumnVectorD.zeros_from_length,
        Container.newVector, if_neg hsz, Out.bind_panic]
  rw [dot_eq, hz, Out.bind_panic]

theorem matmul_empty_result [Target] (n : Nat) (hn : 0 < n) (mem : Mem α) (kern : Kern α) (alpha beta : α)
    (d : Container) :
    matmul kern alpha ⟨d, .rowMajor ⟨(n, 0)⟩, .dynamic, .dynamic⟩
      ⟨d, .rowMajor ⟨(0, n)⟩, .dynamic, .dynamic⟩ beta
      ⟨⟨0, 0, 0⟩, .rowMajor ⟨(n, n)⟩, .dynamic, .dynamic⟩ mem = .ub := by
  have ht : ∀ l : RowMajor, NotTriangular (.rowMajor l) := by intro l u h; simp at h
  unfold matmul
  simp only [Out.bind_ok, stride_claimed (ht _), Layout.dim, and_self]
  rw [Out.assert_pos trivial, Out.bind_ok]
  unfold gemm
  rw [if_neg]
  intro h
  have := (h.2.2.1 0 hn 0 hn).2
  simp [gemmAddr, BaseMatrix.get_pointer, Container.get_pointer] at this

theorem dotZeros_wrap [Target] (n : Nat) (hn : n * n = W) (mem : Mem Int) :
    dotZeros rel .matMat n n mem = .ok (⟨⟨mem.bufs.length, 0, 0⟩, .rowMajor ⟨(n, n)⟩, .dynamic,
      .dynamic⟩, ⟨mem.bufs ++ [[]]⟩) := by
  have h1 : rel.mul n n = .ok 0 := by simp [Cfg.mul, Cfg.wrap, hn]
  simp [dotZeros, zeros_from_dim, BaseKind.from_dimension, RowMajor.from_dimension,
    Layout.number_of_elements, RowMajor.number_of_elements, h1, Container.newVector, Mem.alloc,
    from_data, BaseMatrix.new, Container.number_of_elements, Out.assert]

/-- In release builds, `dot` of a `2^32 × 0` and a `0 × 2^32` matrix (which need no memory) is
undefined: the size of the result wraps to 0 and the kernel writes outside the empty result. -/
theorem C48_release_undefined [Target] (n : Nat) (hn : n * n = W) :
    let a : BaseMatrix := ⟨⟨0, 0, 0⟩, .rowMajor ⟨(n, 0)⟩, .dynamic, .dynamic⟩
    let b : BaseMatrix := ⟨⟨0, 0, 0⟩, .rowMajor ⟨(0, n)⟩, .dynamic, .dynamic⟩
    Sound a (⟨[]⟩ : Mem Int) ∧ Sound b (⟨[]⟩ : Mem Int) ∧
    dot rel exactKern .matMat a b (⟨[]⟩ : Mem Int) = .ub := by
  intro a b
  have hpos : 0 < n := by
    rcases Nat.eq_zero_or_pos n with h | h
    · have := W_pos; simp [h] at hn; omega
    · exact h
  refine ⟨sound_of_contiguous trivial ⟨by simp [a], by simp [a]⟩ (by simp [a, count]),
    sound_of_contiguous trivial ⟨by simp [b], by simp [b]⟩ (by simp [b, count]), ?_⟩
  rw [dot_eq, show dotZeros rel .matMat a.layout.dim.1 b.layout.dim.2 (⟨[]⟩ : Mem Int) = _ from
    dotZeros_wrap n hn _, Out.bind_ok]
  have := matmul_empty_result n hpos (⟨[[]]⟩ : Mem Int) exactKern 1 0 ⟨0, 0, 0⟩
  simp only [List.length_nil, List.nil_append, a, b, this, Out.bind_ub]

example : 2 ^ 32 * 2 ^ 32 = W := by decide

/-! ## C49 -/

theorem Represents.mono [Target] {m : BaseMatrix} {mem mem' : Mem α} {A : Arr α} (h : Represents m mem A)
    (hS : Sound m mem) (he : Extends mem mem') : Represents m mem' A :=
  fun r c hs => by rw [he.elem hS hs]; exact h r c hs

/-- `(x + y).eval()`. -/
theorem eval_sum [Target] [Zero α] [Add α] [Mul α] {cfg : Cfg} {x y : BaseMatrix} {mem : Mem α}
    (hx : Sound x mem) (hy : Sound y mem) (hd : x.layout.dim = y.layout.dim)
    (hk : x.layout.indexKind = y.layout.indexKind) (hcol : x.layout.indexKind ≠ .columnVector)
    (hsz : count x.layout * cfg.item.size ≤ isizeMax) {X Y : Arr α}
    (hX : Represents x mem X) (hY : Represents y mem Y) :
    ∃ S mem', (do
        let m ← Mat.add_vv (.base x) (.base y)
        m.eval cfg mem) = .ok (S, mem') ∧ S.layout = x.layout.index_layout ∧ S.rs = .dynamic ∧
      S.cs = .dynamic ∧ NewMatrix S mem mem' ∧ Represents S mem' (fun r c => X r c + Y r c) := by
  have hb : Mat.add_vv (.base x) (.base y) =
      .ok (Mat.addition (.base x) (.base y) x.layout.index_layout : Mat α) := by
    unfold Mat.add_vv Mat.addition_new
    rw [Out.assert_pos (show (Mat.base x : Mat α).layout.dim = (Mat.base y : Mat α).layout.dim from hd)]
    rfl
  have hok : MatOK mem (Mat.addition (.base x) (.base y) x.layout.index_layout : Mat α) :=
    ⟨hx, hy, hd, hk, rfl⟩
  obtain ⟨S, mem', e, h1, h2, h3, h4, h5, h6, h7, -⟩ := hok.eval cfg
    (by simp only [Mat.layout, index_layout_kind]; exact fun h => absurd h hcol)
    (by simp only [Mat.layout, index_layout_count]; exact hsz)
  have hl : S.layout = x.layout.index_layout := by
    rw [h1]
    simp only [Mat.layout]
    cases x.layout <;> rfl
  refine ⟨S, mem', by rw [hb]; exact e, hl, h2, h3, ⟨h4, h5, h6⟩, fun r c hs => ?_⟩
  rw [h7 r c hs]
  rw [hl, index_layout_stored] at hs
  have hs' : Stored y.layout r c := by
    exact (stored_same hk hd r c).1 hs
  have e1 : elem x mem r c = some (X r c) := hX r c hs
  have e2 : elem y mem r c = some (Y r c) := hY r c hs'
  simp only [matValue, e1, e2]
  rfl

/-- `(s * x).eval()`. -/
theorem eval_scale [Target] [Zero α] [Add α] [Mul α] {cfg : Cfg} (s : α) {x : BaseMatrix} {mem : Mem α}
    (hx : Sound x mem) (hcol : x.layout.indexKind ≠ .columnVector)
    (hsz : count x.layout * cfg.item.size ≤ isizeMax) {X : Arr α} (hX : Represents x mem X) :
    ∃ S mem', (Mat.mul_sv s (.base x)).eval cfg mem = .ok (S, mem') ∧
      S.layout = x.layout.index_layout ∧ S.rs = .dynamic ∧ S.cs = .dynamic ∧
      NewMatrix S mem mem' ∧ Represents S mem' (fun r c => s * X r c) := by
  have hok : MatOK mem (Mat.mul_sv s (.base x)) := hx
  obtain ⟨S, mem', e, h1, h2, h3, h4, h5, h6, h7, -⟩ := hok.eval cfg (fun h => absurd h hcol) hsz
  refine ⟨S, mem', e, h1, h2, h3, ⟨h4, h5, h6⟩, fun r c hs => ?_⟩
  rw [h7 r c hs]
  rw [h1] at hs
  have hs : Stored x.layout r c := (index_layout_stored _ r c).1 hs
  have e1 : elem x mem r c = some (X r c) := hX r c hs
  simp only [Mat.mul_sv, Mat.scalar_mult_new, matValue, e1]
  rfl

/-- Two matrices read the same. -/
def Equal [Target] (cfg : Cfg) (mem : Mem α) (x y : BaseMatrix) : Prop :=
  x.layout.dim = y.layout.dim ∧ ∀ r c, r < x.layout.dim.1 → c < x.layout.dim.2 →
    ∃ v, x.get cfg mem r c = .ok v ∧ y.get cfg mem r c = .ok v

theorem equal_of_represents [Target] {cfg : Cfg} {mem : Mem α} {x y : BaseMatrix} (hx : Sound x mem)
    (hy : Sound y mem) (htx : NotTriangular x.layout) (hty : NotTriangular y.layout)
    (hd : x.layout.dim = y.layout.dim) {X Y : Arr α} (hX : Represents x mem X)
    (hY : Represents y mem Y)
    (h : ∀ r c, r < x.layout.dim.1 → c < x.layout.dim.2 → X r c = Y r c) : Equal cfg mem x y := by
  refine ⟨hd, fun r c hr hc => ⟨X r c, ?_, ?_⟩⟩
  · exact (represents_get hx cfg).1 hX r c ((stored_of_notTri htx).2 ⟨hr, hc⟩)
  · rw [h r c hr hc]
    exact (represents_get hy cfg).1 hY r c ((stored_of_notTri hty).2 (by rw [← hd]; exact ⟨hr, hc⟩))

theorem indexLayout_honest {l : Layout} (h : NotTriangular l) :
    Honest l.index_layout ∧ NotTriangular l.index_layout := by
  cases l with
  | upperTriangular u => exact absurd rfl (h u)
  | _ => exact ⟨trivial, by intro u e; simp [Layout.index_layout] at e⟩

/-- **C49**, associativity: `(a.dot(b)).dot(c)` and `a.dot(b.dot(c))` read the same, whichever of the
three `dot`s are used for the four products. -/
theorem C49_assoc [Target] [Semiring α] (cfg : Cfg) (i1 i2 i3 i4 : DotImpl) (a b c : BaseMatrix) (mem : Mem α)
    (ha : Sound a mem) (hb : Sound b mem) (hc : Sound c mem)
    (hoa : Honest a.layout) (hob : Honest b.layout) (hoc : Honest c.layout)
    (m k n p : Nat) (hda : a.layout.dim = (m, k)) (hdb : b.layout.dim = (k, n))
    (hdc : c.layout.dim = (n, p))
    (hr1 : i1 = .rowMat → m = 1) (hc1 : i1 = .matCol → n = 1)
    (hr2 : i2 = .rowMat → m = 1) (hc2 : i2 = .matCol → p = 1)
    (hr3 : i3 = .rowMat → k = 1) (hc3 : i3 = .matCol → p = 1)
    (hr4 : i4 = .rowMat → m = 1) (hc4 : i4 = .matCol → p = 1)
    (hs1 : m * n * cfg.item.size ≤ isizeMax) (hs2 : m * p * cfg.item.size ≤ isizeMax)
    (hs3 : k * p * cfg.item.size ≤ isizeMax) :
    ∃ ab x bc y mem1 mem2 mem3 mem4,
      dot cfg exactKern i1 a b mem = .ok (ab, mem1) ∧ dot cfg exactKern i2 ab c mem1 = .ok (x, mem2) ∧
      dot cfg exactKern i3 b c mem2 = .ok (bc, mem3) ∧
      dot cfg exactKern i4 a bc mem3 = .ok (y, mem4) ∧ Equal cfg mem4 x y := by
  obtain ⟨A, hA⟩ := represents_some ha
  obtain ⟨B, hB⟩ := represents_some hb
  obtain ⟨C, hC⟩ := represents_some hc
  have vs : ∀ (i : DotImpl) (x y : BaseMatrix), (i = .rowMat → x.layout.dim.1 = 1) →
      (i = .matCol → y.layout.dim.2 = 1) → VectorShape i x y := by
    intro i x y h1 h2
    cases i with
    | matMat => trivial
    | rowMat => exact h1 rfl
    | matCol => exact h2 rfl
  have v1 : VectorShape i1 a b := vs _ _ _ (by rw [hda]; exact hr1) (by rw [hdb]; exact hc1)
  obtain ⟨ab, mem1, e1, l1, n1, r1⟩ := dot_represents (cfg := cfg) ha hb hoa hob (by rw [hda, hdb])
    v1 (by rw [hda, hdb]; exact hs1) hA hB
  have d1 : ab.layout.dim = (m, n) := by rw [l1, productLayout_dim v1, hda, hdb]
  obtain ⟨-, t1, o1⟩ := productLayout_props i1 a.layout.dim.1 b.layout.dim.2
  rw [← l1] at o1 t1
  have v2 : VectorShape i2 ab c := vs _ _ _ (by rw [d1]; exact hr2) (by rw [hdc]; exact hc2)
  obtain ⟨x, mem2, e2, l2, n2, r2⟩ := dot_represents (cfg := cfg) n1.sound (n1.ext.sound hc) o1 hoc
    (by rw [d1, hdc]) v2 (by rw [d1, hdc]; exact hs2) r1 (hC.mono hc n1.ext)
  have d2 : x.layout.dim = (m, p) := by rw [l2, productLayout_dim v2, d1, hdc]
  obtain ⟨-, t2, o2⟩ := productLayout_props i2 ab.layout.dim.1 c.layout.dim.2
  rw [← l2] at o2 t2
  have x2 := n1.ext.trans n2.ext
  have v3 : VectorShape i3 b c := vs _ _ _ (by rw [hdb]; exact hr3) (by rw [hdc]; exact hc3)
  obtain ⟨bc, mem3, e3, l3, n3, r3⟩ := dot_represents (cfg := cfg) (x2.sound hb) (x2.sound hc) hob hoc
    (by rw [hdb, hdc]) v3 (by rw [hdb, hdc]; exact hs3) (hB.mono hb x2) (hC.mono hc x2)
  have d3 : bc.layout.dim = (k, p) := by rw [l3, productLayout_dim v3, hdb, hdc]
  obtain ⟨-, t3, o3⟩ := productLayout_props i3 b.layout.dim.1 c.layout.dim.2
  rw [← l3] at o3 t3
  have x3 := x2.trans n3.ext
  have v4 : VectorShape i4 a bc := vs _ _ _ (by rw [hda]; exact hr4) (by rw [d3]; exact hc4)
  obtain ⟨y, mem4, e4, l4, n4, r4⟩ := dot_represents (cfg := cfg) (x3.sound ha) n3.sound hoa o3
    (by rw [hda, d3]) v4 (by rw [hda, d3]; exact hs2) (hA.mono ha x3) r3
  have d4 : y.layout.dim = (m, p) := by rw [l4, productLayout_dim v4, hda, d3]
  obtain ⟨-, t4, -⟩ := productLayout_props i4 a.layout.dim.1 bc.layout.dim.2
  rw [← l4] at t4
  have x34 := n3.ext.trans n4.ext
  refine ⟨ab, x, bc, y, mem1, mem2, mem3, mem4, e1, e2, e3, e4,
    equal_of_represents (x34.sound n2.sound) n4.sound t2 t4 (by rw [d2, d4])
      (Represents.mono r2 n2.sound x34) r4 ?_⟩
  intro r s _ _
  simp only [d1, hda, hdb, Finset.sum_mul, Finset.mul_sum, mul_assoc]
  exact Finset.sum_comm

/-- **C49**, distributivity: `a.dot((b1 + b2).eval())` and `(a.dot(b1) + a.dot(b2)).eval()` read the
same. (Not for column vectors of other lengths than 1, whose sums `eval` cannot evaluate: C41.) -/
theorem C49_distrib [Target] [Semiring α] (cfg : Cfg) (i : DotImpl) (a b1 b2 : BaseMatrix) (mem : Mem α)
    (ha : Sound a mem) (hb1 : Sound b1 mem) (hb2 : Sound b2 mem)
    (hoa : Honest a.layout) (hob1 : Honest b1.layout) (hob2 : Honest b2.layout)
    (hk : b1.layout.indexKind = b2.layout.indexKind) (hcol : b1.layout.indexKind ≠ .columnVector)
    (m k n : Nat) (hda : a.layout.dim = (m, k)) (hd1 : b1.layout.dim = (k, n))
    (hd2 : b2.layout.dim = (k, n)) (hi : i ≠ .matCol) (hrow : i = .rowMat → m = 1)
    (hs1 : count b1.layout * cfg.item.size ≤ isizeMax) (hs2 : m * n * cfg.item.size ≤ isizeMax) :
    ∃ s x p q y mem1 mem2 mem3 mem4 mem5,
      (do
        let e ← Mat.add_vv (.base b1) (.base b2)
        e.eval cfg mem) = .ok (s, mem1) ∧
      dot cfg exactKern i a s mem1 = .ok (x, mem2) ∧
      dot cfg exactKern i a b1 mem2 = .ok (p, mem3) ∧ dot cfg exactKern i a b2 mem3 = .ok (q, mem4) ∧
      (do
        let e ← Mat.add_vv (.base p) (.base q)
        e.eval cfg mem4) = .ok (y, mem5) ∧ Equal cfg mem5 x y := by
  obtain ⟨A, hA⟩ := represents_some ha
  obtain ⟨B1, hB1⟩ := represents_some hb1
  obtain ⟨B2, hB2⟩ := represents_some hb2
  have vs : ∀ x y : BaseMatrix, x.layout.dim = (m, k) → VectorShape i x y := by
    intro x y hx
    cases i with
    | matMat => trivial
    | rowMat => exact (congrArg Prod.fst hx).trans (hrow rfl)
    | matCol => exact absurd rfl hi
  obtain ⟨s, mem1, e1, l1, -, -, n1, r1⟩ := eval_sum (cfg := cfg) hb1 hb2 (by rw [hd1, hd2]) hk hcol
    hs1 hB1 hB2
  obtain ⟨o1, t1⟩ := indexLayout_honest hob1.notTri
  rw [← l1] at o1 t1
  have ds : s.layout.dim = (k, n) := by rw [l1, index_layout_dim, hd1]
  obtain ⟨x, mem2, e2, l2, n2, r2⟩ := dot_represents (cfg := cfg) (n1.ext.sound ha) n1.sound hoa o1
    (by rw [hda, ds]) (vs a s hda) (by rw [hda, ds]; exact hs2) (hA.mono ha n1.ext) r1
  have dx : x.layout.dim = (m, n) := by rw [l2, productLayout_dim (vs a s hda), hda, ds]
  have tx := (productLayout_props i a.layout.dim.1 s.layout.dim.2).2.1
  rw [← l2] at tx
  have x2 := n1.ext.trans n2.ext
  obtain ⟨p, mem3, e3, l3, n3, r3⟩ := dot_represents (cfg := cfg) (x2.sound ha) (x2.sound hb1) hoa hob1
    (by rw [hda, hd1]) (vs a b1 hda) (by rw [hda, hd1]; exact hs2) (hA.mono ha x2) (hB1.mono hb1 x2)
  have dp : p.layout.dim = (m, n) := by rw [l3, productLayout_dim (vs a b1 hda), hda, hd1]
  have tp := (productLayout_props i a.layout.dim.1 b1.layout.dim.2).2.1
  rw [← l3] at tp
  have x3 := x2.trans n3.ext
  obtain ⟨q, mem4, e4, l4, n4, r4⟩ := dot_represents (cfg := cfg) (x3.sound ha) (x3.sound hb2) hoa hob2
    (by rw [hda, hd2]) (vs a b2 hda) (by rw [hda, hd2]; exact hs2) (hA.mono ha x3) (hB2.mono hb2 x3)
  have dq : q.layout.dim = (m, n) := by rw [l4, productLayout_dim (vs a b2 hda), hda, hd2]
  have lpq : p.layout = q.layout := by rw [l3, l4, hd1, hd2]
  have hcp : count p.layout = m * n := by
    rw [l3, hda, hd1]
    cases i with
    | matMat => rfl
    | rowMat => rw [hrow rfl, one_mul]; rfl
    | matCol => exact absurd rfl hi
  obtain ⟨y, mem5, e5, l5, -, -, n5, r5⟩ := eval_sum (cfg := cfg) (n4.ext.sound n3.sound) n4.sound
    (by rw [lpq]) (by rw [lpq])
    (by rw [l3]; cases i <;> simp [productLayout, Layout.indexKind] at hi ⊢)
    (by rw [hcp]; exact hs2) (Represents.mono r3 n3.sound n4.ext) r4
  have dy : y.layout.dim = (m, n) := by rw [l5, index_layout_dim, dp]
  have x5 := (n3.ext.trans n4.ext).trans n5.ext
  refine ⟨s, x, p, q, y, mem1, mem2, mem3, mem4, mem5, e1, e2, e3, e4, e5,
    equal_of_represents (x5.sound n2.sound) n5.sound tx
      (by rw [l5]; exact (indexLayout_honest tp).2) (by rw [dx, dy])
      (Represents.mono r2 n2.sound x5) r5 ?_⟩
  intro r c _ _
  simp only [mul_add, Finset.sum_add_distrib]

/-- **C49**, scalars: `(s * a).eval().dot(b)` and `(s * a.dot(b)).eval()` read the same. -/
theorem C49_scalar [Target] [Semiring α] (cfg : Cfg) (i j : DotImpl) (s : α) (a b : BaseMatrix) (mem : Mem α)
    (ha : Sound a mem) (hb : Sound b mem) (hoa : Honest a.layout) (hob : Honest b.layout)
    (hcol : a.layout.indexKind ≠ .columnVector)
    (m k n : Nat) (hda : a.layout.dim = (m, k)) (hdb : b.layout.dim = (k, n))
    (hi : i = .rowMat → m = 1) (hi' : i = .matCol → n = 1) (hj : j = .rowMat → m = 1)
    (hj' : j ≠ .matCol)
    (hs1 : count a.layout * cfg.item.size ≤ isizeMax) (hs2 : m * n * cfg.item.size ≤ isizeMax) :
    ∃ sa x p y mem1 mem2 mem3 mem4,
      (Mat.mul_sv s (.base a)).eval cfg mem = .ok (sa, mem1) ∧
      dot cfg exactKern i sa b mem1 = .ok (x, mem2) ∧ dot cfg exactKern j a b mem2 = .ok (p, mem3) ∧
      (Mat.mul_sv s (.base p)).eval cfg mem3 = .ok (y, mem4) ∧ Equal cfg mem4 x y := by
  obtain ⟨A, hA⟩ := represents_some ha
  obtain ⟨B, hB⟩ := represents_some hb
  obtain ⟨sa, mem1, e1, l1, -, -, n1, r1⟩ := eval_scale (cfg := cfg) s ha hcol hs1 hA
  obtain ⟨o1, t1⟩ := indexLayout_honest hoa.notTri
  rw [← l1] at o1 t1
  have dsa : sa.layout.dim = (m, k) := by rw [l1, index_layout_dim, hda]
  have v2 : VectorShape i sa b := by
    cases i with
    | matMat => trivial
    | rowMat => exact (congrArg Prod.fst dsa).trans (hi rfl)
    | matCol => exact (congrArg Prod.snd hdb).trans (hi' rfl)
  have v3 : VectorShape j a b := by
    cases j with
    | matMat => trivial
    | rowMat => exact (congrArg Prod.fst hda).trans (hj rfl)
    | matCol => exact absurd rfl hj'
  obtain ⟨x, mem2, e2, l2, n2, r2⟩ := dot_represents (cfg := cfg) n1.sound (n1.ext.sound hb) o1 hob
    (by rw [dsa, hdb]) v2 (by rw [dsa, hdb]; exact hs2) r1 (hB.mono hb n1.ext)
  have dx : x.layout.dim = (m, n) := by rw [l2, productLayout_dim v2, dsa, hdb]
  have tx := (productLayout_props i sa.layout.dim.1 b.layout.dim.2).2.1
  rw [← l2] at tx
  have x2 := n1.ext.trans n2.ext
  obtain ⟨p, mem3, e3, l3, n3, r3⟩ := dot_represents (cfg := cfg) (x2.sound ha) (x2.sound hb) hoa hob
    (by rw [hda, hdb]) v3 (by rw [hda, hdb]; exact hs2) (hA.mono ha x2) (hB.mono hb x2)
  have dp : p.layout.dim = (m, n) := by rw [l3, productLayout_dim v3, hda, hdb]
  have tp := (productLayout_props j a.layout.dim.1 b.layout.dim.2).2.1
  rw [← l3] at tp
  have hcp : count p.layout = m * n := by
    rw [l3, hda, hdb]
    cases j with
    | matMat => rfl
    | rowMat => rw [hj rfl, one_mul]; rfl
    | matCol => exact absurd rfl hj'
  obtain ⟨y, mem4, e4, l4, -, -, n4, r4⟩ := eval_scale (cfg := cfg) s n3.sound
    (by rw [l3]; cases j <;> simp [productLayout, Layout.indexKind] at hj' ⊢)
    (by rw [hcp]; exact hs2) r3
  have dy : y.layout.dim = (m, n) := by rw [l4, index_layout_dim, dp]
  have x4 := n3.ext.trans n4.ext
  refine ⟨sa, x, p, y, mem1, mem2, mem3, mem4, e1, e2, e3, e4,
    equal_of_represents (x4.sound n2.sound) n4.sound tx
      (by rw [l4]; exact (indexLayout_honest tp).2) (by rw [dx, dy])
      (Represents.mono r2 n2.sound x4) r4 ?_⟩
  intro r c _ _
  simp only [dsa, hda, Finset.mul_sum, mul_assoc]

/-- A case of each law: `exA` is 2 × 3, `exB` 3 × 2. -/
example : (do
      let (ab, mem1) ← dot dbg exactKern .matMat exA exB exMemP
      let (x, mem2) ← dot dbg exactKern .matMat ab exA mem1
      let (bc, mem3) ← dot dbg exactKern .matMat exB exA mem2
      let (y, mem4) ← dot dbg exactKern .matMat exA bc mem3
      return (← x.get dbg mem4 1 2, ← y.get dbg mem4 1 2)) = .ok (114, 114) := by decide
example : (do
      let e ← Mat.add_vv (.base exB) (.base exB)
      let (s, mem1) ← e.eval dbg exMemP
      let (x, mem2) ← dot dbg exactKern .matMat exA s mem1
      x.get dbg mem2 1 0) = .ok 32 := by decide
example : (do
      let (sa, mem1) ← (Mat.mul_sv 3 (.base exA)).eval dbg exMemP
      let (x, mem2) ← dot dbg exactKern .matMat sa exB mem1
      x.get dbg mem2 1 0) = .ok 48 := by decide

end Householder.Props
