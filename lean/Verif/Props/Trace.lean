import Verif.Lemmas.Trace
import Verif.Props.Expr

/-!
# C82: expressions are evaluated in a single pass

"Only when the user asks for the evaluation, all operations are executed in a single pass without
creating temporaries" (src/lib.rs:16-21).
-/

namespace Householder.Props

open Spec

variable {α : Type}

/-- **C82**, keeping the record changes nothing: the functions that keep it have the outcome of the
functions that do not, for every matrix, memory and build. -/
theorem C82_same_results [Target] [Zero α] [Add α] [Mul α] (cfg : Cfg) (m : Mat α) (mem : Mem α) :
    (Traced.eval cfg m mem).out = m.eval cfg mem ∧
    (∀ r c, (Traced.get cfg m mem r c).out = m.get cfg mem r c) ∧
    (∀ k, (Traced.get1d cfg m mem k).out = m.get1d cfg mem k) ∧
    ∀ {σ : Type} (b : BaseMatrix) (f : σ → α → σ × α) (s : σ),
      (Traced.for_each cfg b f s mem).out = b.for_each cfg f s mem :=
  ⟨Spec.Traced.out_eval cfg m mem, Spec.Traced.out_get cfg m mem, Spec.Traced.out_get1d cfg m mem,
    fun b f s => Spec.Traced.out_for_each cfg b f s mem⟩

example : (Traced.eval dbg exSumMat exMem).out = exSumMat.eval dbg exMem ∧
    (∃ x, exSumMat.eval dbg exMem = .ok x) ∧ (Traced.get dbg exSumMat exMem 2 0).out = .panic ∧
    (Traced.get dbg exSumMat exMem 2 0).log = [] :=
  ⟨(C82_same_results dbg exSumMat exMem).1, ⟨_, rfl⟩, by decide, by decide⟩

/-- The positions of every matrix in a well-formed expression are those of the expression. -/
theorem leaf_positions (e : Ex α) (ht : e.Typed) (hc : e.Conform) :
    ∀ b ∈ e.leaves, order b.layout = orderOf e.kind e.dim := by
  induction e with
  | leaf b =>
    intro b' hb'
    obtain rfl : b' = b := by simpa [Ex.leaves] using hb'
    exact order_eq_orderOf _
  | ref a ih => exact ih ht hc
  | add f g a b iha ihb =>
    intro x hx
    rcases List.mem_append.1 hx with h | h
    · exact iha ht.1 hc.1 x h
    · rw [ihb ht.2.1 hc.2.1 x h, ← ht.2.2.1, ← hc.2.2]; rfl
  | scale f g s a ih => exact ih ht hc

/-- **C82.** `eval` of an expression over sound matrices is a single pass: it allocates the result and
nothing else, then goes through the positions in 1D order, at each of them reads every matrix of the
expression once (as often as it occurs in the expression), does the additions and multiplications of
the expression, and stores the value. Nothing is read, computed or stored besides. -/
theorem C82_single_pass [Target] [Zero α] [Add α] [Mul α] (cfg : Cfg) (e : Ex α) (mem : Mem α)
    (m : Mat α) (ht : e.Typed) (hl : ∀ b ∈ e.leaves, Sound b mem) (hb : e.build = .ok m)
    (hk : e.kind = .columnVector → e.dim.1 = 1)
    (hsz : (orderOf e.kind e.dim).length * cfg.item.size ≤ isizeMax) :
    ∃ R mem', m.eval cfg mem = .ok (R, mem') ∧ R.layout.dim = e.dim ∧ Fresh R mem ∧
      (Traced.eval cfg m mem).log = e.singlePass R := by
  obtain ⟨h1, h2⟩ := e.build_spec ht
  have hc : e.Conform := by
    by_contra h
    rw [h2 h] at hb; exact absurd hb (by simp)
  obtain ⟨m', hm, hd, hki, -, hok, -⟩ := h1 hc
  obtain rfl : m = m' := by rw [hb] at hm; simpa using hm
  have hok := hok mem hl
  have ho : orderOf e.kind e.dim = order m.layout := by rw [order_eq_orderOf, hd, hki]
  rw [ho, order_length] at hsz
  have hk' : m.layout.indexKind = .columnVector → m.layout.dim.1 = 1 := by rw [hki, hd]; exact hk
  obtain ⟨R, mem', g1, g2, -, -, -, g4, -, -, -⟩ := hok.eval cfg hk' hsz
  refine ⟨R, mem', g1, by rw [g2, index_layout_dim, hd], g4, ?_⟩
  rw [hok.log_eval cfg hk' hsz g1, Ex.singlePass, ho, order_length]
  simp only [build_pass e hb]

example [Target] : ∃ R mem', exSumMat.eval dbg exMem = .ok (R, mem') ∧ R.layout.dim = (2, 2) ∧
    Fresh R exMem ∧ (Traced.eval dbg exSumMat exMem).log = exSum.singlePass R :=
  C82_single_pass dbg exSum exMem exSumMat exSum_typed exSum_leaves exSum_build (by decide) (by decide_width)

example : (Traced.eval dbg exSumMat exMem).log =
    [.alloc 2 4,
     .read ⟨0, 1⟩, .read ⟨1, 2⟩, .read ⟨0, 1⟩, .plus, .times, .plus, .write ⟨2, 0⟩,
     .read ⟨0, 2⟩, .read ⟨1, 3⟩, .read ⟨0, 2⟩, .plus, .times, .plus, .write ⟨2, 1⟩,
     .read ⟨0, 4⟩, .read ⟨1, 4⟩, .read ⟨0, 4⟩, .plus, .times, .plus, .write ⟨2, 2⟩,
     .read ⟨0, 5⟩, .read ⟨1, 5⟩, .read ⟨0, 5⟩, .plus, .times, .plus, .write ⟨2, 3⟩] := by decide

/-! ## The cost -/

theorem filterMap_flatMap' {β γ δ : Type} (l : List β) (f : β → List γ) (g : γ → Option δ) :
    (l.flatMap f).filterMap g = l.flatMap fun a => (f a).filterMap g := by
  induction l with
  | nil => rfl
  | cons a l ih => simp [List.flatMap_cons, List.filterMap_append, ih]

theorem pass_reads (e : Ex α) (r c : Nat) : (e.pass r c).filterMap readCell = e.leaves.map (cell · r c) := by
  induction e with
  | leaf b => rfl
  | ref a ih => exact ih
  | add f g a b iha ihb => simp [Ex.pass, Ex.leaves, List.filterMap_append, iha, ihb, readCell]
  | scale f g s a ih => simp [Ex.pass, Ex.leaves, List.filterMap_append, ih, readCell]

theorem pass_writes (e : Ex α) (r c : Nat) : (e.pass r c).filterMap writtenCell = [] := by
  induction e with
  | leaf b => rfl
  | ref a ih => exact ih
  | add f g a b iha ihb => simp only [Ex.pass, List.filterMap_append, iha, ihb]; rfl
  | scale f g s a ih => simp only [Ex.pass, List.filterMap_append, ih]; rfl

theorem pass_allocs (e : Ex α) (r c : Nat) : (e.pass r c).filterMap allocated = [] := by
  induction e with
  | leaf b => rfl
  | ref a ih => exact ih
  | add f g a b iha ihb => simp only [Ex.pass, List.filterMap_append, iha, ihb]; rfl
  | scale f g s a ih => simp only [Ex.pass, List.filterMap_append, ih]; rfl

theorem pass_plus (e : Ex α) (r c : Nat) : (e.pass r c).count .plus = e.sums := by
  induction e with
  | leaf b => rfl
  | ref a ih => exact ih
  | add f g a b iha ihb => simp [Ex.pass, Ex.sums, List.count_append, iha, ihb]; omega
  | scale f g s a ih => simp [Ex.pass, Ex.sums, List.count_append, ih]

theorem pass_times (e : Ex α) (r c : Nat) : (e.pass r c).count .times = e.scalings := by
  induction e with
  | leaf b => rfl
  | ref a ih => exact ih
  | add f g a b iha ihb => simp [Ex.pass, Ex.scalings, List.count_append, iha, ihb]
  | scale f g s a ih => simp [Ex.pass, Ex.scalings, List.count_append, ih]

theorem singlePass_reads (e : Ex α) (R : BaseMatrix) : readsOf (e.singlePass R) =
    (orderOf e.kind e.dim).flatMap fun p => e.leaves.map (cell · p.1 p.2) := by
  unfold readsOf Ex.singlePass
  rw [List.filterMap_cons, filterMap_flatMap']
  have h : ∀ p : Loc, [Event.write p].filterMap readCell = [] := fun _ => rfl
  simp only [List.filterMap_append, pass_reads, h, List.append_nil]
  rfl

theorem singlePass_writes (e : Ex α) (R : BaseMatrix) : writesOf (e.singlePass R) =
    (orderOf e.kind e.dim).map fun p => cell R p.1 p.2 := by
  unfold writesOf Ex.singlePass
  rw [List.filterMap_cons, filterMap_flatMap', List.map_eq_flatMap]
  simp only [List.filterMap_append, pass_writes]
  rfl

theorem singlePass_allocs (e : Ex α) (R : BaseMatrix) :
    allocsOf (e.singlePass R) = [(orderOf e.kind e.dim).length] := by
  unfold allocsOf Ex.singlePass
  rw [List.filterMap_cons, filterMap_flatMap']
  simp [List.filterMap_append, pass_allocs, allocated]

theorem count_flatMap_const {β : Type} (l : List β) (f : β → List Event) (x : Event) (k : Nat)
    (h : ∀ a, (f a).count x = k) : (l.flatMap f).count x = l.length * k := by
  induction l with
  | nil => simp
  | cons a l ih => rw [List.flatMap_cons, List.count_append, h, ih, List.length_cons]; ring

/-- **C82**, the cost: for `n` elements, `eval` makes one allocation of `n` elements, reads `n` elements
per matrix in the expression, does `n` additions per `+` and `n` multiplications per `*`, and
stores `n` elements. -/
theorem C82_cost [Target] [Zero α] [Add α] [Mul α] (cfg : Cfg) (e : Ex α) (mem : Mem α)
    (m : Mat α) (ht : e.Typed) (hl : ∀ b ∈ e.leaves, Sound b mem) (hb : e.build = .ok m)
    (hk : e.kind = .columnVector → e.dim.1 = 1) (n : Nat) (hn : n = (orderOf e.kind e.dim).length)
    (hsz : n * cfg.item.size ≤ isizeMax) :
    let log := (Traced.eval cfg m mem).log
    allocsOf log = [n] ∧ (readsOf log).length = n * e.leaves.length ∧ (writesOf log).length = n ∧
      log.count .plus = n * e.sums ∧ log.count .times = n * e.scalings := by
  subst hn
  obtain ⟨R, mem', -, -, -, hlog⟩ := C82_single_pass cfg e mem m ht hl hb hk hsz
  intro log
  rw [show log = e.singlePass R from hlog]
  refine ⟨singlePass_allocs e R, ?_, by rw [singlePass_writes, List.length_map], ?_, ?_⟩
  · rw [singlePass_reads, List.length_flatMap]
    simp
  · rw [Ex.singlePass, List.count_cons_of_ne (by simp)]
    exact count_flatMap_const _ _ _ _ fun p => by
      rw [List.count_append, pass_plus]; simp
  · rw [Ex.singlePass, List.count_cons_of_ne (by simp)]
    exact count_flatMap_const _ _ _ _ fun p => by
      rw [List.count_append, pass_times]; simp

example [Target] : allocsOf (Traced.eval rel exSumMat exMem).log = [4] ∧
    (readsOf (Traced.eval rel exSumMat exMem).log).length = 12 ∧
    (writesOf (Traced.eval rel exSumMat exMem).log).length = 4 ∧
    (Traced.eval rel exSumMat exMem).log.count .plus = 8 ∧
    (Traced.eval rel exSumMat exMem).log.count .times = 4 :=
  C82_cost rel exSum exMem exSumMat exSum_typed exSum_leaves exSum_build (by decide) 4 (by decide)
    (by decide_width)

/-- **C82**, if the matrices of the expression are different and do not overlap, no cell is read twice;
no cell is written twice, and none is both read and written, in any case. -/
theorem C82_once [Target] [Zero α] [Add α] [Mul α] (cfg : Cfg) (e : Ex α) (mem : Mem α)
    (m : Mat α) (ht : e.Typed) (hl : ∀ b ∈ e.leaves, Sound b mem) (hb : e.build = .ok m)
    (hk : e.kind = .columnVector → e.dim.1 = 1)
    (hsz : (orderOf e.kind e.dim).length * cfg.item.size ≤ isizeMax) :
    let log := (Traced.eval cfg m mem).log
    (e.leaves.Pairwise Separate → (∀ b ∈ e.leaves, NonOverlapping b.layout) →
      (readsOf log).Nodup) ∧
    (writesOf log).Nodup ∧ ∀ p ∈ readsOf log, p ∉ writesOf log := by
  obtain ⟨R, mem', g1, gd, gf, hlog⟩ := C82_single_pass cfg e mem m ht hl hb hk hsz
  obtain ⟨R', mem'', g1', -, -, gc, gk, -⟩ := C37_eval cfg e mem m ht hl hb hk hsz
  obtain ⟨rfl, rfl⟩ : R = R' ∧ mem' = mem'' := by rw [g1] at g1'; simpa using g1'
  have hc : e.Conform := by
    by_contra h
    rw [(e.build_spec ht).2 h] at hb; exact absurd hb (by simp)
  have hlp := leaf_positions e ht hc
  have hst : ∀ b ∈ e.leaves, ∀ p ∈ orderOf e.kind e.dim, Stored b.layout p.1 p.2 := by
    intro b hb p hp
    rw [← hlp b hb] at hp
    exact mem_order.1 hp
  have hRo : order R.layout = orderOf e.kind e.dim := by rw [order_eq_orderOf, gd, gk]
  have hsR : ∀ p ∈ orderOf e.kind e.dim, Stored R.layout p.1 p.2 := by
    intro p hp
    rw [← hRo] at hp
    exact mem_order.1 hp
  have hnd : (orderOf e.kind e.dim).Nodup := hRo ▸ order_nodup R.layout
  intro log
  rw [show log = e.singlePass R from hlog, singlePass_reads, singlePass_writes]
  refine ⟨fun hsep hno => ?_, ?_, ?_⟩
  · rw [List.nodup_flatMap]
    refine ⟨fun p hp => ?_, ?_⟩
    · rw [List.Nodup, List.pairwise_map]
      refine hsep.imp_of_mem fun {b b'} hb hb' h => ?_
      exact h p.1 p.2 p.1 p.2 (hst b hb p hp) (hst b' hb' p hp)
    · refine hnd.imp_of_mem fun {p p'} hp hp' hne => ?_
      rw [Function.onFun, List.disjoint_left]
      intro q hq hq'
      obtain ⟨b, hb, rfl⟩ := List.mem_map.1 hq
      obtain ⟨b', hb', e'⟩ := List.mem_map.1 hq'
      by_cases hbb : b = b'
      · subst hbb
        obtain ⟨e1, e2⟩ := cell_inj (hno b hb) (hst b hb p' hp') (hst b hb p hp) e'
        exact hne (Prod.ext e1.symm e2.symm)
      · have : Std.Symm Separate := ⟨fun x y h r c r' c' h1 h2 => (h r' c' r c h2 h1).symm⟩
        exact hsep.forall hb' hb (Ne.symm hbb) _ _ _ _ (hst b' hb' p' hp') (hst b hb p hp) e'
  · refine hnd.map_on fun p hp p' hp' h => ?_
    obtain ⟨e1, e2⟩ := cell_inj (contiguous_nonOverlapping gc) (hsR p hp) (hsR p' hp') h
    exact Prod.ext e1 e2
  · intro q hq hq'
    obtain ⟨p, hp, hq⟩ := List.mem_flatMap.1 hq
    obtain ⟨b, hb, rfl⟩ := List.mem_map.1 hq
    obtain ⟨p', -, e'⟩ := List.mem_map.1 hq'
    have h1 := (hl b hb).cell_lt (hst b hb p hp)
    have h2 := Mem.buf_lt_of_size (mem := mem) (b := (cell b p.1 p.2).buf) (by omega)
    rw [← e'] at h2
    exact absurd gf (by unfold Fresh; simp only [cell] at h2; omega)

/-- `&block + 3 * square`: two matrices in different buffers. -/
def exApart : Ex Int := .add true false (.leaf exBlock) (.scale true false 3 (.leaf exSquare))

example : readsOf (Traced.eval dbg (.addition (.ref (.base exBlock)) (.scalarMult (.base exSquare) 3)
      (.rowMajor ⟨(2, 2)⟩)) exMem).log =
    [⟨0, 1⟩, ⟨1, 2⟩, ⟨0, 2⟩, ⟨1, 3⟩, ⟨0, 4⟩, ⟨1, 4⟩, ⟨0, 5⟩, ⟨1, 5⟩] := by decide

example : exApart.leaves.Pairwise Separate ∧ (∀ b ∈ exApart.leaves, NonOverlapping b.layout) ∧
    exApart.Typed ∧ exApart.build = .ok (.addition (.ref (.base exBlock))
      (.scalarMult (.base exSquare) 3) (.rowMajor ⟨(2, 2)⟩)) := by
  refine ⟨?_, ?_, ⟨trivial, trivial, rfl, rfl⟩, rfl⟩
  · simp only [exApart, Ex.leaves, List.cons_append, List.nil_append, List.pairwise_cons,
      List.mem_cons, List.not_mem_nil, or_false, forall_eq, false_imp_iff, implies_true,
      List.Pairwise.nil, and_true]
    intro r c r' c' _ _ h
    have hb : (0 : Nat) = 1 := congrArg Loc.buf h
    omega
  · intro b hb
    simp only [exApart, Ex.leaves, List.cons_append, List.nil_append, List.mem_cons,
      List.not_mem_nil, or_false] at hb
    rcases hb with rfl | rfl
    · simp [NonOverlapping, exBlock]
    · trivial

/-- **C82**, element access to an expression reads every matrix once, at that position. -/
theorem C82_access [Target] [Add α] [Mul α] (cfg : Cfg) (e : Ex α) (mem : Mem α)
    (m : Mat α) (ht : e.Typed) (hl : ∀ b ∈ e.leaves, Sound b mem) (hb : e.build = .ok m) :
    (∀ p ∈ orderOf e.kind e.dim, (Traced.get cfg m mem p.1 p.2).log = e.pass p.1 p.2) ∧
    ∀ k p, (orderOf e.kind e.dim)[k]? = some p → (Traced.get1d cfg m mem k).log = e.pass p.1 p.2 := by
  obtain ⟨h1, h2⟩ := e.build_spec ht
  have hc : e.Conform := by
    by_contra h
    rw [h2 h] at hb; exact absurd hb (by simp)
  obtain ⟨m', hm, hd, hki, -, hok, -⟩ := h1 hc
  obtain rfl : m = m' := by rw [hb] at hm; simpa using hm
  have hok := hok mem hl
  have ho : orderOf e.kind e.dim = order m.layout := by rw [order_eq_orderOf, hd, hki]
  rw [ho]
  refine ⟨fun p hp => ?_, fun k p hp => ?_⟩
  · have hs := mem_order.1 hp
    unfold Traced.get
    rw [Spec.Traced.log_bind (a := ()) (assert_dimension_ok hs.1 hs.2.1), (hok.log_unchecked cfg hs).1,
      build_pass e hb]
    rfl
  · obtain ⟨hs, rfl⟩ := order_get_iff.1 hp
    unfold Traced.get1d
    rw [Spec.Traced.log_bind (a := count m.layout) (hok.number_of_elements cfg),
      Spec.Traced.log_bind (a := ()) (Out.assert_pos (index_lt hs)), (hok.log_unchecked cfg hs).2,
      build_pass e hb]
    rfl

example : (Traced.get dbg exSumMat exMem 1 0).log =
    [.read ⟨0, 4⟩, .read ⟨1, 4⟩, .read ⟨0, 4⟩, .plus, .times, .plus] := by decide

/-- **C82**, `for_each` (and so random fill) reads and writes every element once, in 1D order. -/
theorem C82_for_each [Target] {σ : Type} (cfg : Cfg) (m : BaseMatrix) (mem : Mem α) (h : Sound m mem)
    (f : σ → α → σ × α) (s : σ) :
    (Traced.for_each cfg m f s mem).log =
      (order m.layout).flatMap fun p => [.read (cell m p.1 p.2), .write (cell m p.1 p.2)] :=
  h.log_for_each cfg f s

example : (Traced.for_each dbg exBlock (fun s x => (s + 1, x + s)) (5 : Int) exMem).log =
    [.read ⟨0, 1⟩, .write ⟨0, 1⟩, .read ⟨0, 2⟩, .write ⟨0, 2⟩,
     .read ⟨0, 4⟩, .write ⟨0, 4⟩, .read ⟨0, 5⟩, .write ⟨0, 5⟩] := by decide

end Householder.Props
