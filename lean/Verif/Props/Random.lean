import Verif.Spec.Random
import Verif.Props.Constructors
import Mathlib.Probability.Independence.InfinitePi
import Mathlib.Probability.Distributions.Gaussian.Real

/-!
# C84: random matrices hold independent samples

`fill_from_rand_standard_normal` is documented as "Fill a matrix with normally distributed random
numbers" (src/matrix/random.rs:21), and `random_scalar` as applying generator and distribution
"separately [...] to obtain the real and imaginary part" (src/tools.rs:7-10). If the numbers that the
generator and the distribution yield one after the other are independent and have a distribution
`μ`, so are and have the elements of the matrices filled from them. Which distribution
`rand_distr::StandardNormal` has is up to that library: `μ` is arbitrary.
-/

namespace Householder.Props

open Spec MeasureTheory ProbabilityTheory

variable {α ρ : Type}

/-- A program that fills several matrices, one after the other, from one generator. -/
def fillAll [Target] (cfg : Cfg) (draw : ρ → α × ρ) : List BaseMatrix → ρ → Mem α → Out (ρ × Mem α)
  | [], rng, mem => .ok (rng, mem)
  | m :: ms, rng, mem => do
    let x ← m.fill_from_rand cfg draw rng mem
    fillAll cfg draw ms x.1 x.2

/-- The number of elements of the matrices before the `i`-th. -/
def before (ms : List BaseMatrix) (i : Nat) : Nat := ((ms.take i).map fun m => count m.layout).sum

/-- Which sample an element gets. -/
def place (ms : List BaseMatrix) (q : Entry ms) : Nat :=
  before ms q.1.1 + index (ms.get q.1.1).layout q.1.2.1 q.1.2.2

theorem genAfter_add {real : Type} (d : Sampler ρ real) (rng : ρ) (n k : Nat) :
    genAfter d (genAfter d rng n) k = genAfter d rng (n + k) := by
  induction k with
  | zero => rfl
  | succ k ih => rw [genAfter, ih]; rfl

theorem draw_add {real : Type} (d : Sampler ρ real) (rng : ρ) (n k : Nat) :
    draw d (genAfter d rng n) k = draw d rng (n + k) := by
  rw [draw, genAfter_add]; rfl

theorem before_cons_succ (m : BaseMatrix) (ms : List BaseMatrix) (i : Nat) :
    before (m :: ms) (i + 1) = count m.layout + before ms i := by
  simp [before]

theorem before_le {ms : List BaseMatrix} {i j : Nat} (h : i < j) (hi : i < ms.length) :
    before ms i + count (ms[i]).layout ≤ before ms j := by
  induction ms generalizing i j with
  | nil => simp at hi
  | cons m ms ih =>
    obtain ⟨j, rfl⟩ : ∃ j', j = j' + 1 := ⟨j - 1, by omega⟩
    cases i with
    | zero => simp [before]
    | succ i =>
      have := ih (i := i) (j := j) (by omega) (by simpa using hi)
      rw [before_cons_succ, before_cons_succ]
      simp only [List.getElem_cons_succ]
      omega

theorem place_injective (ms : List BaseMatrix) : (place ms).Injective := by
  have key : ∀ q q' : Entry ms, q.1.1 < q'.1.1 → place ms q < place ms q' := by
    intro q q' hlt
    have h1 := before_le (ms := ms) (i := q.1.1) (j := q'.1.1) hlt q.1.1.2
    have h2 := index_lt q.2
    simp only [place, List.get_eq_getElem] at h2 ⊢
    omega
  intro q q' e
  rcases lt_trichotomy q.1.1 q'.1.1 with h | h | h
  · exact absurd e (key q q' h).ne
  · obtain ⟨⟨i, r, c⟩, hs⟩ := q
    obtain ⟨⟨i', r', c'⟩, hs'⟩ := q'
    obtain rfl : i = i' := h
    simp only [place, Nat.add_left_cancel_iff] at e
    obtain ⟨rfl, rfl⟩ := index_inj hs hs' e
    rfl
  · exact absurd e (key q' q h).ne'

/-- Which sample goes where, for several matrices. -/
theorem fillAll_spec [Target] (cfg : Cfg) (d : Sampler ρ α) (ms : List BaseMatrix) (mem : Mem α)
    (hs : ∀ m ∈ ms, Sound m mem) (hn : ∀ m ∈ ms, NonOverlapping m.layout)
    (hp : ms.Pairwise Separate) (rng : ρ) :
    ∃ mem', fillAll cfg d.sample ms rng mem = .ok (genAfter d rng (before ms ms.length), mem') ∧
      (∀ q : Entry ms, (ms.get q.1.1).get cfg mem' q.1.2.1 q.1.2.2 = .ok (draw d rng (place ms q))) ∧
      (∀ b, mem'.size b = mem.size b) ∧
      ∀ q, (∀ m ∈ ms, ∀ r c, Stored m.layout r c → q ≠ cell m r c) → mem'.get? q = mem.get? q := by
  induction ms generalizing mem rng with
  | nil => exact ⟨mem, rfl, fun q => q.1.1.elim0, fun _ => rfl, fun _ _ => rfl⟩
  | cons m ms ih =>
    have hm := hs m (by simp)
    have hnm := hn m (by simp)
    obtain ⟨mem1, st, h1, -, -, h4⟩ := hm.for_each hnm cfg
      (fun rng _ => let r := random_scalar_real d rng; (r.2, r.1)) rng
    obtain ⟨mem1', g1, g2, g3⟩ := C25_fill_real cfg m mem hm hnm d rng
    obtain rfl : mem1' = mem1 := by
      unfold BaseMatrix.fill_from_rand at g1
      rw [h1] at g1
      simp at g1
      exact g1.2.symm
    rw [order_length] at g1
    rw [List.pairwise_cons] at hp
    obtain ⟨mem2, e, i1, i2, i3⟩ := ih mem1' (fun m' hm' => (hs m' (by simp [hm'])).mono (by rw [h4.size]))
      (fun m' hm' => hn m' (by simp [hm'])) hp.2 (genAfter d rng (count m.layout))
    have hm1 : Sound m mem1' := hm.mono (by rw [h4.size])
    have hm2 : Sound m mem2 := hm1.mono (by rw [i2])
    refine ⟨mem2, ?_, ?_, fun b => by rw [i2, h4.size], ?_⟩
    · have hg : m.fill_from_rand cfg d.sample rng mem = .ok (genAfter d rng (count m.layout), mem1') := g1
      simp only [fillAll, hg, Out.bind_ok, e, List.length_cons, before_cons_succ, genAfter_add]
    · rintro ⟨⟨⟨i, hi⟩, r, c⟩, hst⟩
      cases i with
      | zero =>
        have hst' : Stored m.layout r c := hst
        have hv := g2 _ r c (order_index hst')
        have : elem m mem2 r c = elem m mem1' r c :=
          i3 _ fun m' hm' r' c' hs' => hp.1 m' hm' r c r' c' hst' hs'
        show m.get cfg mem2 r c = _
        rw [hm1.get_iff cfg hst'] at hv
        rw [hm2.get_iff cfg hst', this, hv]
        simp [place, before]
      | succ i =>
        have hi' : i < ms.length := by simpa using hi
        have := i1 ⟨⟨⟨i, hi'⟩, r, c⟩, hst⟩
        rw [draw_add] at this
        refine this.trans ?_
        simp only [place, before_cons_succ, List.get_eq_getElem, List.getElem_cons_succ, Nat.add_assoc]
    · intro q hq
      rw [i3 q fun m' hm' => hq m' (by simp [hm']), g3 q fun r c h => hq m (by simp) r c h]

theorem genAfter_complex {real : Type} (mk : real → real → α) (d : Sampler ρ real) (rng : ρ) (k : Nat) :
    genAfter (⟨random_scalar_complex mk d⟩ : Sampler ρ α) rng k = genAfter d rng (2 * k) := by
  induction k with
  | zero => rfl
  | succ k ih => rw [genAfter, ih]; rfl

theorem draw_complex {real : Type} (mk : real → real → α) (d : Sampler ρ real) (rng : ρ) (k : Nat) :
    draw (⟨random_scalar_complex mk d⟩ : Sampler ρ α) rng k =
      mk (draw d rng (2 * k)) (draw d rng (2 * k + 1)) := by
  rw [draw, genAfter_complex]; rfl

/-- **C84**, real scalars. If the samples are independent with distribution `μ`, then so are all
elements of all matrices that are filled one after the other. -/
theorem C84_real [Target] {Ω : Type} [MeasurableSpace Ω] [MeasurableSpace α] (P : Measure Ω)
    (μ : Measure α) (cfg : Cfg) (d : Sampler ρ α) (rng : Ω → ρ)
    (hd : Iid P μ fun k ω => draw d (rng ω) k) (ms : List BaseMatrix) (mem : Mem α)
    (hs : ∀ m ∈ ms, Sound m mem) (hn : ∀ m ∈ ms, NonOverlapping m.layout)
    (hp : ms.Pairwise Separate) :
    ∃ E : Entry ms → Ω → α, Iid P μ E ∧
      ∀ ω, ∃ rng' mem', fillAll cfg (random_scalar_real d) ms (rng ω) mem = .ok (rng', mem') ∧
        ∀ q : Entry ms, (ms.get q.1.1).get cfg mem' q.1.2.1 q.1.2.2 = .ok (E q ω) := by
  refine ⟨fun q ω => draw d (rng ω) (place ms q), hd.precomp (place_injective ms), fun ω => ?_⟩
  obtain ⟨mem', h1, h2, -⟩ := fillAll_spec cfg d ms mem hs hn hp (rng ω)
  exact ⟨_, mem', h1, h2⟩

/-- **C84**, complex scalars: the real and imaginary parts of all elements of all matrices are
independent and have the distribution of the samples. -/
theorem C84_complex [Target] {Ω real : Type} [MeasurableSpace Ω] [MeasurableSpace real] (P : Measure Ω)
    (μ : Measure real) (cfg : Cfg) (mk : real → real → α) (d : Sampler ρ real) (rng : Ω → ρ)
    (hd : Iid P μ fun k ω => draw d (rng ω) k) (ms : List BaseMatrix) (mem : Mem α)
    (hs : ∀ m ∈ ms, Sound m mem) (hn : ∀ m ∈ ms, NonOverlapping m.layout)
    (hp : ms.Pairwise Separate) :
    ∃ E : Entry ms × Fin 2 → Ω → real, Iid P μ E ∧
      ∀ ω, ∃ rng' mem', fillAll cfg (random_scalar_complex mk d) ms (rng ω) mem = .ok (rng', mem') ∧
        ∀ q : Entry ms, (ms.get q.1.1).get cfg mem' q.1.2.1 q.1.2.2 =
          .ok (mk (E (q, 0) ω) (E (q, 1) ω)) := by
  have hinj : Function.Injective fun x : Entry ms × Fin 2 => 2 * place ms x.1 + x.2 := by
    rintro ⟨q, i⟩ ⟨q', i'⟩ e
    simp only at e
    have h1 : place ms q = place ms q' := by omega
    have h2 : i = i' := by omega
    rw [place_injective ms h1, h2]
  refine ⟨fun x ω => draw d (rng ω) (2 * place ms x.1 + x.2), hd.precomp hinj, fun ω => ?_⟩
  obtain ⟨mem', h1, h2, -⟩ := fillAll_spec cfg ⟨random_scalar_complex mk d⟩ ms mem hs hn hp (rng ω)
  refine ⟨_, mem', h1, fun q => ?_⟩
  rw [h2 q, draw_complex]
  rfl

/-- **C84**, `rand_mat!`: the elements of a new random matrix are independent with the distribution
of the samples. -/
theorem C84_macros [Target] {Ω : Type} [MeasurableSpace Ω] [MeasurableSpace α] [Zero α] (P : Measure Ω)
    (μ : Measure α) (cfg : Cfg) (d : Sampler ρ α) (rng : Ω → ρ)
    (hd : Iid P μ fun k ω => draw d (rng ω) k) (mem : Mem α) :
    (∀ (dim : Nat × Nat) (l : MatLayoutArg), dim.1 * dim.2 * cfg.item.size ≤ isizeMax →
      ∃ E : {p : Nat × Nat // p.1 < dim.1 ∧ p.2 < dim.2} → Ω → α, Iid P μ E ∧
        ∀ ω, ∃ m rng' mem', rand_mat_macro_layout cfg dim l (random_scalar_real d) (rng ω) mem =
            .ok (m, rng', mem') ∧ m.layout.dim = dim ∧
          ∀ p, m.get cfg mem' p.1.1 p.1.2 = .ok (E p ω)) ∧
    (∀ (n : Nat), n * cfg.item.size ≤ isizeMax →
      ∃ E : Fin n → Ω → α, Iid P μ E ∧
        ∀ ω, (∃ m rng' mem', rand_vector_macro_layout cfg n .ColumnVector (random_scalar_real d) (rng ω)
            mem = .ok (m, rng', mem') ∧ m.layout.dim = (n, 1) ∧
            ∀ i : Fin n, m.get cfg mem' i 0 = .ok (E i ω)) ∧
          ∃ m rng' mem', rand_vector_macro_layout cfg n .RowVector (random_scalar_real d) (rng ω)
            mem = .ok (m, rng', mem') ∧ m.layout.dim = (1, n) ∧
            ∀ i : Fin n, m.get cfg mem' 0 i = .ok (E i ω)) := by
  have get_of : ∀ {m : BaseMatrix} {l : Layout} {ω : Ω} {mem' : Mem α} {r c : Nat},
      IsNewRandom cfg m l d (rng ω) mem mem' → Stored l r c →
      m.get cfg mem' r c = .ok (draw d (rng ω) (index l r c)) := by
    intro m l ω mem' r c hx hs
    obtain ⟨hl, h1, -, -, h2⟩ := hx
    subst hl
    have := h1 _ (index_lt hs)
    obtain ⟨v, hv⟩ := h2.elem_some hs
    rw [h2.get1d cfg hs hv] at this
    rw [h2.get cfg hs hv, this]
  refine ⟨fun dim l h => ?_, fun n h => ?_⟩
  · have hst : ∀ p : {p : Nat × Nat // p.1 < dim.1 ∧ p.2 < dim.2},
        Stored (.rowMajor ⟨dim⟩) p.1.1 p.1.2 ∧ Stored (.columnMajor ⟨dim⟩) p.1.1 p.1.2 :=
      fun p => ⟨⟨p.2.1, p.2.2, by simp⟩, ⟨p.2.1, p.2.2, by simp⟩⟩
    cases l with
    | RowMajor =>
      refine ⟨fun p ω => draw d (rng ω) (index (.rowMajor ⟨dim⟩) p.1.1 p.1.2), hd.precomp ?_, fun ω => ?_⟩
      · intro p p' e
        obtain ⟨h1, h2⟩ := index_inj (hst p).1 (hst p').1 e
        exact Subtype.ext (Prod.ext h1 h2)
      · obtain ⟨⟨m, mem', -, e, h2⟩, -⟩ := (C52_random_macros cfg mem d (rng ω)).1 dim h
        exact ⟨m, _, mem', e, by rw [h2.1]; rfl, fun p => get_of h2 (hst p).1⟩
    | ColumnMajor =>
      refine ⟨fun p ω => draw d (rng ω) (index (.columnMajor ⟨dim⟩) p.1.1 p.1.2), hd.precomp ?_, fun ω => ?_⟩
      · intro p p' e
        obtain ⟨h1, h2⟩ := index_inj (hst p).2 (hst p').2 e
        exact Subtype.ext (Prod.ext h1 h2)
      · obtain ⟨-, m, mem', e, h2⟩ := (C52_random_macros cfg mem d (rng ω)).1 dim h
        exact ⟨m, _, mem', e, by rw [h2.1]; rfl, fun p => get_of h2 (hst p).2⟩
  · refine ⟨fun i ω => draw d (rng ω) i, hd.precomp Fin.val_injective, fun ω => ⟨?_, ?_⟩⟩
    · obtain ⟨⟨m, mem', -, e, h2⟩, -⟩ := (C52_random_macros cfg mem d (rng ω)).2 n h
      exact ⟨m, _, mem', e, by rw [h2.1]; rfl, fun i => get_of h2 ⟨i.2, Nat.one_pos, by simp⟩⟩
    · obtain ⟨-, m, mem', e, h2⟩ := (C52_random_macros cfg mem d (rng ω)).2 n h
      exact ⟨m, _, mem', e, by rw [h2.1]; rfl, fun i => get_of h2 ⟨Nat.one_pos, i.2, by simp⟩⟩

/-- A generator that reads from a list of random numbers without end. -/
def stream : Sampler (Nat → ℝ) ℝ := ⟨fun s => (s 0, fun n => s (n + 1))⟩

theorem draw_stream (s : Nat → ℝ) (k : Nat) : draw stream s k = s k := by
  have h : ∀ n, genAfter stream s k n = s (n + k) := by
    induction k with
    | zero => intro n; rfl
    | succ k ih =>
      intro n
      show genAfter stream s k (n + 1) = _
      rw [ih]; congr 1; omega
  show genAfter stream s k 0 = _
  rw [h]; simp

/-- There are independent samples of every distribution; in particular of the standard normal
distribution. -/
theorem stream_iid (μ : Measure ℝ) [IsProbabilityMeasure μ] :
    Iid (Measure.infinitePi fun _ : Nat => μ) μ fun k ω => draw stream ω k := by
  simp only [draw_stream]
  refine ⟨fun i => measurable_pi_apply i, ?_, fun i => Measure.infinitePi_map_eval _ i⟩
  exact iIndepFun_infinitePi (X := fun _ x => x) fun _ => measurable_id

/-- Two matrices of the standard normal distribution. -/
def exPair : List BaseMatrix :=
  [⟨⟨0, 0, 6⟩, .columnMajor ⟨(3, 2)⟩, .dynamic, .dynamic⟩, ⟨⟨1, 0, 3⟩, .upperTriangular ⟨2⟩, .dynamic,
    .dynamic⟩]

@[inherit_doc exPair]
def exPairMem : Mem ℝ := ⟨[[0, 0, 0, 0, 0, 0], [0, 0, 0]]⟩

example [Target] : ∃ E : Entry exPair → (Nat → ℝ) → ℝ,
    Iid (Measure.infinitePi fun _ : Nat => gaussianReal 0 1) (gaussianReal 0 1) E ∧
      ∀ ω, ∃ rng' mem', fillAll dbg (random_scalar_real stream) exPair ω exPairMem = .ok (rng', mem') ∧
        ∀ q : Entry exPair, (exPair.get q.1.1).get dbg mem' q.1.2.1 q.1.2.2 = .ok (E q ω) := by
  refine C84_real _ _ dbg stream id (stream_iid _) exPair exPairMem ?_ ?_ ?_
  · intro m hm
    simp only [exPair, List.mem_cons, List.not_mem_nil, or_false] at hm
    rcases hm with rfl | rfl
    · exact sound_of_contiguous trivial ⟨by decide, by decide_width⟩ (by decide)
    · exact sound_of_contiguous trivial ⟨by decide, by decide_width⟩ (by decide)
  · intro m hm
    simp only [exPair, List.mem_cons, List.not_mem_nil, or_false] at hm
    rcases hm with rfl | rfl <;> trivial
  · simp only [exPair, List.pairwise_cons, List.mem_cons, List.not_mem_nil, or_false, forall_eq,
      IsEmpty.forall_iff, implies_true, List.Pairwise.nil, and_true]
    intro r c r' c' _ _ e
    simp [cell] at e

/-- The same matrices with complex elements: pairs of independent normal numbers. -/
example [Target] : ∃ E : Entry exPair × Fin 2 → (Nat → ℝ) → ℝ,
    Iid (Measure.infinitePi fun _ : Nat => gaussianReal 0 1) (gaussianReal 0 1) E ∧
      ∀ ω, ∃ rng' mem', fillAll dbg (random_scalar_complex Prod.mk stream) exPair ω
          (⟨[List.replicate 6 (0, 0), List.replicate 3 (0, 0)]⟩ : Mem (ℝ × ℝ)) = .ok (rng', mem') ∧
        ∀ q : Entry exPair, (exPair.get q.1.1).get dbg mem' q.1.2.1 q.1.2.2 =
          .ok (E (q, 0) ω, E (q, 1) ω) := by
  refine C84_complex _ _ dbg Prod.mk stream id (stream_iid _) exPair _ ?_ ?_ ?_
  · intro m hm
    simp only [exPair, List.mem_cons, List.not_mem_nil, or_false] at hm
    rcases hm with rfl | rfl
    · exact sound_of_contiguous trivial ⟨by decide, by decide_width⟩ (by decide)
    · exact sound_of_contiguous trivial ⟨by decide, by decide_width⟩ (by decide)
  · intro m hm
    simp only [exPair, List.mem_cons, List.not_mem_nil, or_false] at hm
    rcases hm with rfl | rfl <;> trivial
  · simp only [exPair, List.pairwise_cons, List.mem_cons, List.not_mem_nil, or_false, forall_eq,
      IsEmpty.forall_iff, implies_true, List.Pairwise.nil, and_true]
    intro r c r' c' _ _ e
    simp [cell] at e

/-- `rand_mat!` of shape 3 × 2, column-major. -/
example [Target] : ∃ E : {p : Nat × Nat // p.1 < 3 ∧ p.2 < 2} → (Nat → ℝ) → ℝ,
    Iid (Measure.infinitePi fun _ : Nat => gaussianReal 0 1) (gaussianReal 0 1) E ∧
      ∀ ω, ∃ m rng' mem', rand_mat_macro_layout dbg (3, 2) .ColumnMajor (random_scalar_real stream) ω ⟨[]⟩ =
          .ok (m, rng', mem') ∧ m.layout.dim = (3, 2) ∧ ∀ p, m.get dbg mem' p.1.1 p.1.2 = .ok (E p ω) :=
  (C84_macros _ _ dbg stream id (stream_iid _) ⟨[]⟩).1 (3, 2) .ColumnMajor (by decide_width)

end Householder.Props
