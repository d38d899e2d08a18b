import Verif.Spec.Linear
import Verif.Props.Expr
import Mathlib.Data.Finset.Basic
import Mathlib.Tactic.Ring

/-!
# C65: an expression is the linear combination it denotes
-/

namespace Householder.Props

open Spec

variable {α : Type}

theorem coeff_not_mem [Semiring α] (e : Ex α) {b : BaseMatrix} (h : b ∉ e.leaves) :
    e.coeff b = 0 := by
  induction e with
  | leaf b' =>
    simp only [Ex.leaves, List.mem_singleton] at h
    simp [Ex.coeff, Ne.symm h]
  | ref a ih => exact ih h
  | add _ _ a a' ih ih' =>
    simp only [Ex.leaves, List.mem_append, not_or] at h
    simp [Ex.coeff, ih h.1, ih' h.2]
  | scale _ _ s a ih => simp [Ex.coeff, ih h]

/-- The value of an expression from the elements of its matrices. -/
theorem value_linear [Semiring α] (e : Ex α) (mem : Mem α) (r c : Nat) (E : BaseMatrix → α)
    (S : Finset BaseMatrix) (hS : ∀ b ∈ e.leaves, b ∈ S)
    (hE : ∀ b ∈ e.leaves, elem b mem r c = some (E b)) :
    e.value mem r c = some (∑ b ∈ S, e.coeff b * E b) := by
  induction e with
  | leaf b' =>
    have h := hE b' (by simp [Ex.leaves])
    have hm := hS b' (by simp [Ex.leaves])
    simp only [Ex.value, h, Ex.coeff, Option.some.injEq]
    rw [Finset.sum_eq_single b']
    · simp
    · intro b _ hb; simp [Ne.symm hb]
    · exact fun h => absurd hm h
  | ref a ih => exact ih hS hE
  | add _ _ a a' ih ih' =>
    have h1 := ih (fun b hb => hS b (by simp [Ex.leaves, hb])) fun b hb => hE b (by simp [Ex.leaves, hb])
    have h2 := ih' (fun b hb => hS b (by simp [Ex.leaves, hb])) fun b hb => hE b (by simp [Ex.leaves, hb])
    simp [Ex.value, h1, h2, Ex.coeff, add_mul, Finset.sum_add_distrib]
  | scale _ _ s a ih =>
    simp [Ex.value, ih hS hE, Ex.coeff, Finset.mul_sum, mul_assoc]

/-- All matrices of a well-formed expression have its shape and index layout type. -/
theorem leaf_shape (e : Ex α) (ht : e.Typed) (hc : e.Conform) :
    ∀ b ∈ e.leaves, b.layout.dim = e.dim ∧ b.layout.indexKind = e.kind := by
  induction e with
  | leaf b' => intro b hb; simp only [Ex.leaves, List.mem_singleton] at hb; subst hb; exact ⟨rfl, rfl⟩
  | ref a ih => exact ih ht hc
  | add _ _ a a' ih ih' =>
    intro b hb
    simp only [Ex.leaves, List.mem_append] at hb
    rcases hb with hb | hb
    · exact ih ht.1 hc.1 b hb
    · obtain ⟨h1, h2⟩ := ih' ht.2.1 hc.2.1 b hb
      exact ⟨h1.trans hc.2.2.symm, h2.trans ht.2.2.1.symm⟩
  | scale _ _ s a ih => exact ih ht hc

theorem conform_of_build {e : Ex α} (ht : e.Typed) {m : Mat α} (hb : e.build = .ok m) : e.Conform := by
  by_contra h
  rw [(e.build_spec ht).2 h] at hb
  exact absurd hb (by simp)

/-- **C65.** Over any semiring, every element of a built expression, of any depth and with any
mixture of values and references, is the sum over its matrices of coefficient times element, where
the coefficient of a matrix is read off the expression. -/
theorem C65_linear_combination [Target] [Semiring α] (cfg : Cfg) (e : Ex α) (mem : Mem α) (m : Mat α)
    (ht : e.Typed) (hl : ∀ b ∈ e.leaves, Sound b mem) (hb : e.build = .ok m) (r c : Nat)
    (hrc : (r, c) ∈ orderOf e.kind e.dim) (E : BaseMatrix → α)
    (hE : ∀ b ∈ e.leaves, b.get cfg mem r c = .ok (E b)) :
    m.get cfg mem r c = .ok (∑ b ∈ e.leaves.toFinset, e.coeff b * E b) := by
  have hc := conform_of_build ht hb
  obtain ⟨k, hk⟩ := List.mem_iff_getElem?.1 hrc
  obtain ⟨v, h1, h2, -⟩ := (C35_get1d_get cfg e mem m ht hl hb k).1 r c hk
  rw [h2]
  have hval := value_linear e mem r c E e.leaves.toFinset (by simp) (fun b hb => by
    obtain ⟨hd, hki⟩ := leaf_shape e ht hc b hb
    have hs : Stored b.layout r c := by rw [← mem_order, order_eq_orderOf, hd, hki]; exact hrc
    obtain ⟨w, hw⟩ := (hl b hb).elem_some hs
    have := hE b hb
    rw [(hl b hb).get cfg hs hw] at this
    rw [hw]
    simpa using this)
  rw [h1] at hval
  simpa using hval

/-- **C65, module laws.** Two expressions of the same shape and type in which every matrix has the
same coefficient give the same elements, by position, by index and when evaluated: sums may be
reassociated and reordered, scalars collected, distributed and multiplied out, zero multiples added
or dropped. -/
theorem C65_module_laws [Target] [Semiring α] (cfg : Cfg) (e e' : Ex α) (mem : Mem α) (m m' : Mat α)
    (ht : e.Typed) (ht' : e'.Typed) (hl : ∀ b ∈ e.leaves, Sound b mem)
    (hl' : ∀ b ∈ e'.leaves, Sound b mem) (hb : e.build = .ok m) (hb' : e'.build = .ok m')
    (hd : e.dim = e'.dim) (hk : e.kind = e'.kind) (hco : ∀ b, e.coeff b = e'.coeff b) :
    (∀ r c, (r, c) ∈ orderOf e.kind e.dim → m.get cfg mem r c = m'.get cfg mem r c) ∧
    (∀ k, m.get1d cfg mem k = m'.get1d cfg mem k) ∧
    ((orderOf e.kind e.dim).length * cfg.item.size ≤ isizeMax →
      (e.kind = .columnVector → e.dim.1 = 1) →
      ∃ R mem1 R' mem1', m.eval cfg mem = .ok (R, mem1) ∧ m'.eval cfg mem = .ok (R', mem1') ∧
      R.layout = R'.layout ∧
      ∀ r c, Stored R.layout r c → R.get cfg mem1 r c = R'.get cfg mem1' r c) := by
  have hget : ∀ r c, (r, c) ∈ orderOf e.kind e.dim → m.get cfg mem r c = m'.get cfg mem r c := by
    intro r c hrc
    have hsome : ∀ b, b ∈ e.leaves ∨ b ∈ e'.leaves → ∃ w, b.get cfg mem r c = .ok w := by
      intro b hb1
      have : Stored b.layout r c ∧ Sound b mem := by
        rw [← mem_order, order_eq_orderOf]
        rcases hb1 with h | h
        · obtain ⟨h1, h2⟩ := leaf_shape e ht (conform_of_build ht hb) b h
          rw [h1, h2]; exact ⟨hrc, hl b h⟩
        · obtain ⟨h1, h2⟩ := leaf_shape e' ht' (conform_of_build ht' hb') b h
          rw [h1, h2, ← hd, ← hk]; exact ⟨hrc, hl' b h⟩
      obtain ⟨w, hw⟩ := this.2.elem_some this.1
      exact ⟨w, this.2.get cfg this.1 hw⟩
    let E : BaseMatrix → α := fun b => match b.get cfg mem r c with | .ok w => w | _ => 0
    have hE : ∀ b, b ∈ e.leaves ∨ b ∈ e'.leaves → b.get cfg mem r c = .ok (E b) := by
      intro b h
      obtain ⟨w, hw⟩ := hsome b h
      simp [E, hw]
    rw [C65_linear_combination cfg e mem m ht hl hb r c hrc E fun b h => hE b (.inl h),
      C65_linear_combination cfg e' mem m' ht' hl' hb' r c (hd ▸ hk ▸ hrc) E fun b h => hE b (.inr h)]
    congr 1
    trans ∑ b ∈ e.leaves.toFinset ∪ e'.leaves.toFinset, e.coeff b * E b
    · exact Finset.sum_subset Finset.subset_union_left fun b _ h => by
        rw [coeff_not_mem e (by simpa using h), zero_mul]
    · symm
      simp only [hco]
      exact Finset.sum_subset Finset.subset_union_right fun b _ h => by
        rw [coeff_not_mem e' (by simpa using h), zero_mul]
  have h1d : ∀ k, m.get1d cfg mem k = m'.get1d cfg mem k := by
    intro k
    cases hp : (orderOf e.kind e.dim)[k]? with
    | none =>
      rw [(C35_get1d_get cfg e mem m ht hl hb k).2 hp,
        (C35_get1d_get cfg e' mem m' ht' hl' hb' k).2 (by rw [← hd, ← hk]; exact hp)]
    | some p =>
      obtain ⟨r, c⟩ := p
      obtain ⟨v, -, h2, h3⟩ := (C35_get1d_get cfg e mem m ht hl hb k).1 r c hp
      obtain ⟨v', -, h2', h3'⟩ := (C35_get1d_get cfg e' mem m' ht' hl' hb' k).1 r c
        (by rw [← hd, ← hk]; exact hp)
      have := hget r c (List.mem_of_getElem? hp)
      rw [h2, h2'] at this
      rw [h3, h3', this]
  refine ⟨hget, h1d, fun hsz hcv => ?_⟩
  obtain ⟨R, mem1, g1, g2, g3, -, g4, -, -, -, g5, -⟩ := C37_eval cfg e mem m ht hl hb hcv hsz
  obtain ⟨R', mem1', g1', g2', g3', -, g4', -, -, -, g5', -⟩ := C37_eval cfg e' mem m' ht' hl' hb'
    (by rw [← hd, ← hk]; exact hcv) (by rw [← hd, ← hk]; exact hsz)
  have hlay : R.layout = R'.layout := by
    obtain ⟨x, hx, hx1, hx2, -⟩ := (e.build_spec ht).1 (conform_of_build ht hb)
    obtain ⟨y, hy, hy1, hy2, -⟩ := (e'.build_spec ht').1 (conform_of_build ht' hb')
    obtain rfl : m = x := by simpa [hb] using hx
    obtain rfl : m' = y := by simpa [hb'] using hy
    rw [g3, g3', index_layout_eq, index_layout_eq, hx1, hy1, hd, hx2, hy2, hk]
  refine ⟨R, mem1, R', mem1', g1, g1', hlay, fun r c hs => ?_⟩
  obtain ⟨v, -, h2, h3⟩ := g5 r c hs
  obtain ⟨v', -, h2', h3'⟩ := g5' r c (hlay ▸ hs)
  have := hget r c (by
    rw [← g2, ← g4, ← order_eq_orderOf, mem_order]; exact hs)
  rw [h3, h3'] at this
  rw [h2, h2', this]

/-! ## Non-trivial case -/

/-- `2 * (&block + square) + 3 * &block + 0 * square`. -/
def exLinear : Ex Int :=
  .add false false
    (.add false true (.scale true false 2 (.add true false (.leaf exBlock) (.leaf exSquare)))
      (.scale true true 3 (.leaf exBlock)))
    (.scale false false 0 (.leaf exSquare))

/-- `square * 2 + (block * 5)`. -/
def exLinear' : Ex Int :=
  .add false false (.scale false false 2 (.leaf exSquare)) (.scale false false 5 (.leaf exBlock))

example : ∀ b, exLinear.coeff b = exLinear'.coeff b := by
  intro b
  simp only [exLinear, exLinear', Ex.coeff]
  ring

example : ∃ m m', exLinear.build = .ok m ∧ exLinear'.build = .ok m' ∧
    m.get dbg exMem 1 0 = .ok (2 * 50 + 5 * 5) ∧ m'.get dbg exMem 1 0 = .ok (2 * 50 + 5 * 5) :=
  ⟨_, _, rfl, rfl, by decide, by decide⟩

end Householder.Props
