import Verif.Lemmas.StatefulExact
import Verif.Props.StatefulDot
import Verif.Props.TraitsMulExact

/-!
# Exactly which implementations that change are undefined, and when (C86)
-/

namespace Householder.Props

open Spec

variable {S α V D X V₁ D₁ X₁ V₂ D₂ X₂ V₃ D₃ X₃ : Type}

/-- **C86, exactly**: reads, for any implementations whatever that change in whatever way. The layout
is asked for, then its shape, and then the matrices that the expression reads, in their order, each in
the state that the calls before have left. A safe read is undefined exactly if the first of these
calls that does not return is undefined (the reads only if the position is inside the shape that was
answered). -/
theorem C86_exact_reads [Add α] [Mul α] (A : Acts S α V D X) (mem : Mem α) (m : AnyMat α V D X)
    (r c i : Nat) (s : S) :
    (A.get m mem r c s = .ub ↔ A.layout m s = .ub ∨ ∃ l s1, A.layout m s = .ok (l, s1) ∧
      (A.lay.dim l s1 = .ub ∨ ∃ d s2, A.lay.dim l s1 = .ok (d, s2) ∧ r < d.1 ∧ c < d.2 ∧
        FaultyRun ((sources m).map (call2d A mem r c)) s2)) ∧
    (A.get1d m mem i s = .ub ↔ A.layout m s = .ub ∨ ∃ l s1, A.layout m s = .ok (l, s1) ∧
      (A.lay.number_of_elements l s1 = .ub ∨ ∃ n s2, A.lay.number_of_elements l s1 = .ok (n, s2) ∧
        i < n ∧ FaultyRun ((sources m).map (call1d A mem i)) s2)) := by
  constructor
  · unfold Acts.get
    rw [bind_run, Out.bind_eq_ub, Prod.exists]
    exact or_congr_right (exists_congr fun l => exists_congr fun s1 => and_congr_right fun _ =>
      ub_dimension_run fun t => (needsRun2d A mem r c m t).ub)
  · unfold Acts.get1d
    rw [bind_run, Out.bind_eq_ub, Prod.exists]
    exact or_congr_right (exists_congr fun l => exists_congr fun s1 => and_congr_right fun _ =>
      ub_number_run fun t => (needsRun1d A mem i m t).ub)

/-- **C86, exactly**: expressions of matrices with a layout that changes in whatever way, but whose
functions return or panic, over the containers of the crate. Reads, mutable access, `for_each` and
evaluation are undefined exactly if the first conversion that does not give a cell of its container,
asked in the state that the calls before it have left, gives a raw index past the end. -/
theorem C86_exact [Target] [Zero α] [Add α] [Mul α] {σ : Type} (L : LayoutActs S V)
    (hL : NeverUndefined L) (kind : V) (cfg : Cfg) (mem : Mem α) (m : AnyMat α V Container Empty)
    (b : AnyBase V Container)
    (hm : ∀ x ∈ origins m, x.data.off + x.data.len ≤ mem.size x.data.buf)
    (hb : b.data.off + b.data.len ≤ mem.size b.data.buf) (r c i : Nat) (f : σ → α → σ × α) (x : σ)
    (s : S) :
    let A := actsOverCrate L α
    (A.get m mem r c s = .ub ↔ ∃ d t, L.dim (topLayout m) s = .ok (d, t) ∧ r < d.1 ∧ c < d.2 ∧
      Misses (aims2d L m r c) t) ∧
    (A.get1d m mem i s = .ub ↔ ∃ n t, L.number_of_elements (topLayout m) s = .ok (n, t) ∧ i < n ∧
      Misses (aims1d L m i) t) ∧
    (A.get_mut b r c s = .ub ↔ ∃ d t, L.dim b.layout s = .ok (d, t) ∧ r < d.1 ∧ c < d.2 ∧
      ∃ k u, L.convert_2d_raw b.layout r c t = .ok (k, u) ∧ b.data.len ≤ k) ∧
    (A.get1d_mut b i s = .ub ↔ ∃ n t, L.number_of_elements b.layout s = .ok (n, t) ∧ i < n ∧
      ∃ k u, L.convert_1d_raw b.layout i t = .ok (k, u) ∧ b.data.len ≤ k) ∧
    (A.for_each b f x mem s = .ub ↔ ∃ n t, L.number_of_elements b.layout s = .ok (n, t) ∧
      Misses ((List.range n).map fun i => ⟨L.convert_1d_raw b.layout i, b.data.len⟩) t) ∧
    (A.eval kind cfg m mem s = .ub ↔ EvalMisses L kind cfg m s) := by
  refine ⟨?_, ?_, ?_, ?_, ?_, ?_⟩
  · simp only [Acts.get]
    rw [bind_run, layout_over, Out.bind_ok]
    exact (ub_dimension_run fun t => (aims2d_read hL m hm t).ub).trans (or_iff_right (hL.dim _ _))
  · simp only [Acts.get1d]
    rw [bind_run, layout_over, Out.bind_ok]
    exact (ub_number_run fun t => (aims1d_read hL m hm t).ub).trans (or_iff_right (hL.number _ _))
  · exact (ub_dimension_run fun t => (aims2d_place hL b r c t).ub.trans misses_one).trans
      (or_iff_right (hL.dim _ _))
  · exact (ub_number_run fun t => (aims1d_place hL b i t).ub.trans misses_one).trans
      (or_iff_right (hL.number _ _))
  · simp only [Acts.for_each]
    rw [bind_run, Out.bind_eq_ub, Prod.exists]
    refine (or_iff_right (hL.number _ _)).trans ?_
    refine exists_congr fun n => exists_congr fun t => and_congr_right fun _ => ?_
    rw [← List.flatMap_singleton' ((List.range n).map _), List.flatMap_map]
    exact (aims_for_each hL hb f x n t).ub
  · simp only [Acts.eval, EvalMisses]
    rw [bind_run, layout_over, Out.bind_ok, bind_run, Out.bind_eq_ub, Prod.exists]
    refine (or_iff_right (hL.dim _ _)).trans (exists_congr fun d => exists_congr fun s1 => ?_)
    rw [bind_run]
    simp only [exists_and_left]
    refine and_congr_right fun _ => ?_
    rw [Out.bind_eq_ub, Prod.exists]
    refine (or_iff_right (hL.from_dimension _ _ _)).trans
      (exists_congr fun l => exists_congr fun s2 => and_congr_right fun _ => ?_)
    rw [bind_run, Out.bind_eq_ub, Prod.exists]
    refine (or_iff_right (hL.number _ _)).trans
      (exists_congr fun n => exists_congr fun s3 => and_congr_right fun _ => ?_)
    rw [bind_run]
    by_cases hroom : n * cfg.item.size ≤ isizeMax
    swap
    · simp [Container.newVector, hroom, act]
    have hnew : Container.newVector cfg mem n =
        .ok (⟨mem.bufs.length, 0, n⟩, ⟨mem.bufs ++ [List.replicate n 0]⟩) := by
      simp [Container.newVector, hroom, Mem.alloc]
    rw [hnew, act_run, Out.bind_ok, Out.bind_ok]
    simp only [hroom, true_and]
    rw [bind_run, Out.bind_eq_ub, Prod.exists]
    refine (or_iff_right (hL.from_dimension _ _ _)).trans
      (exists_congr fun l' => exists_congr fun s4 => and_congr_right fun _ => ?_)
    rw [bind_run, Out.bind_eq_ub, Prod.exists]
    refine (or_iff_right (hL.number _ _)).trans
      (exists_congr fun n' => exists_congr fun s5 => and_congr_right fun _ => ?_)
    rw [bind_run]
    by_cases hle : n' ≤ n
    swap
    · rw [assertOr_neg (show ¬ n' ≤ (⟨mem.bufs.length, 0, n⟩ : Container).number_of_elements from hle)]
      simp only [hle, false_and, iff_false]
      rw [bind_assoc, bind_run, Out.bind_assoc', Out.bind_eq_ub]
      rintro (h | ⟨x, -, h⟩)
      · exact hL.number _ _ h
      · cases h
    rw [assertOr_pos (show n' ≤ (⟨mem.bufs.length, 0, n⟩ : Container).number_of_elements from hle),
      pure_run, Out.bind_ok]
    simp only [hle, true_and]
    rw [bind_run, layout_over, Out.bind_ok, bind_run, Out.bind_eq_ub, Prod.exists]
    refine (or_iff_right (hL.number _ _)).trans
      (exists_congr fun k => exists_congr fun s6 => and_congr_right fun _ => ?_)
    have hnb : Backed ⟨mem.bufs.length, 0, n⟩ (⟨mem.bufs ++ [List.replicate n 0]⟩ : Mem α) := by
      unfold Backed
      simp [Mem.size]
    have := (aims_copy (R := ⟨⟨mem.bufs.length, 0, n⟩, l'⟩) hL hnb
      (fun b hb => Backed.append (hm b hb) _) k s6).then_ok
      (f := fun r => .ok (((⟨⟨mem.bufs.length, 0, n⟩, l'⟩ : AnyBase V Container), r.1), r.2))
      fun _ _ _ => ⟨_, rfl⟩
    exact this.ub

/-- **C86, exactly**: which layouts can be used at all. Over a container of the crate the safe reads
of a matrix are defined in all states if and only if a position inside the shape answered is converted,
by the next call, to an index inside the container. It does not matter what the layout says
otherwise, or later. -/
theorem C86_contract [Target] [Zero α] [Add α] [Mul α] (L : LayoutActs S V) (hL : NeverUndefined L)
    (mem : Mem α) (b : AnyBase V Container) (hb : b.data.off + b.data.len ≤ mem.size b.data.buf) :
    let A := actsOverCrate L α
    ((∀ r c s, A.get (.base b) mem r c s ≠ .ub) ∧ (∀ i s, A.get1d (.base b) mem i s ≠ .ub)) ↔
    (∀ s d t, L.dim b.layout s = .ok (d, t) → ∀ r c, r < d.1 → c < d.2 →
      ∀ k u, L.convert_2d_raw b.layout r c t = .ok (k, u) → k < b.data.len) ∧
    ∀ s n t, L.number_of_elements b.layout s = .ok (n, t) → ∀ i, i < n →
      ∀ k u, L.convert_1d_raw b.layout i t = .ok (k, u) → k < b.data.len := by
  have hm : ∀ x ∈ origins (.base b : AnyMat α V Container Empty),
      x.data.off + x.data.len ≤ mem.size x.data.buf := by
    intro x hx
    obtain rfl : x = b := by simpa [origins_base] using hx
    exact hb
  have key := fun r c i s => C86_exact (σ := Unit) L hL b.layout dbg mem (.base b) b hm hb r c i
    (fun x v => (x, v)) () s
  constructor
  · rintro ⟨h2, h1⟩
    constructor
    · intro s d t hd r c hr hc k u hk
      by_contra hlt
      refine h2 r c s ((key r c 0 s).1.2 ⟨d, t, hd, hr, hc, ?_⟩)
      exact misses_one.2 ⟨k, u, hk, Nat.le_of_not_lt hlt⟩
    · intro s d t hd i hi k u hk
      by_contra hlt
      refine h1 i s ((key 0 0 i s).2.1.2 ⟨d, t, hd, hi, ?_⟩)
      exact misses_one.2 ⟨k, u, hk, Nat.le_of_not_lt hlt⟩
  · rintro ⟨h2, h1⟩
    constructor
    · intro r c s h
      obtain ⟨d, t, hd, hr, hc, hmiss⟩ := (key r c 0 s).1.1 h
      obtain ⟨k, u, hk, hle⟩ := misses_one.1 hmiss
      exact absurd (h2 s d t hd r c hr hc k u hk) (Nat.not_lt.2 hle)
    · intro i s h
      obtain ⟨d, t, hd, hi, hmiss⟩ := (key 0 0 i s).2.1.1 h
      obtain ⟨k, u, hk, hle⟩ := misses_one.1 hmiss
      exact absurd (h1 s d t hd i hi k u hk) (Nat.not_lt.2 hle)

/-- **C86, exactly**: slices of any container that changes. -/
theorem C86_exact_slices (A : DataActs S α D) (d : D) (first last : Nat) (s : S) :
    (A.get_slice d first last s = .ub ↔
      SliceFaultyRun (A.number_of_elements d) (A.get_pointer d) first last s) ∧
    (A.get_slice_mut d first last s = .ub ↔
      SliceMutFaultyRun (A.number_of_elements d) (A.get_pointer_mut d) first last s) := by
  have key : ∀ (x : Act S Ptr) (s : S), first < last →
      ((x >>= fun p => act (p.add first) >>= fun q => act (q.from_raw_parts (last - first))) s = .ub ↔
        x s = .ub ∨ ∃ p u, x s = .ok (p, u) ∧ p.prov.len < p.off + last) := by
    intro x s hlt
    rw [bind_run, Out.bind_eq_ub, Prod.exists]
    refine or_congr_right (exists_congr fun p => exists_congr fun u => and_congr_right fun _ => ?_)
    rw [← act_bind, act_run]
    unfold Ptr.add
    by_cases h : p.off + first ≤ p.prov.len
    · rw [if_pos h, Out.bind_ok]
      unfold Ptr.from_raw_parts
      simp only
      split
      · simp; omega
      · simp; omega
    · rw [if_neg h]; simp; omega
  have check : ∀ {p : Prop} [Decidable p] {β : Type} (y : Act S β) (t : S),
      (act (Out.assert p) >>= fun _ => y) t = .ub ↔ p ∧ y t = .ub := by
    intro p _ β y t
    rw [bind_run]
    by_cases h : p
    · rw [Out.assert_pos h]; simp [act, h]
    · rw [Out.assert_neg h]; simp [act, h]
  have checkOr : ∀ {p : Prop} [Decidable p] {β : Type} (z : Act S Nat) (y : Act S β) (t : S),
      (assertOr p (z >>= fun _ => pure ()) >>= fun _ => y) t = .ub ↔
        if p then y t = .ub else z t = .ub := by
    intro p _ β z y t
    by_cases h : p
    · rw [assertOr_pos h, if_pos h]; rfl
    · rw [assertOr_neg h, if_neg h, bind_assoc, bind_assoc, bind_run, Out.bind_eq_ub]
      exact or_iff_left (by rintro ⟨x, -, h⟩; cases h)
  constructor
  · unfold DataActs.get_slice SliceFaultyRun
    rw [check]
    refine and_congr_right fun hlt => ?_
    rw [bind_run, Out.bind_eq_ub, Prod.exists]
    refine or_congr_right (exists_congr fun n => exists_congr fun t => and_congr_right fun _ => ?_)
    refine (checkOr _ _ t).trans ?_
    split
    · exact key _ t hlt
    · rfl
  · unfold DataActs.get_slice_mut SliceMutFaultyRun
    rw [check]
    refine and_congr_right fun hlt => ?_
    rw [bind_run, Out.bind_eq_ub, Prod.exists]
    refine or_congr_right (exists_congr fun n => exists_congr fun t => and_congr_right fun _ => ?_)
    refine (checkOr _ _ t).trans ?_
    by_cases hn : first < n
    swap
    · simp [hn]
    simp only [hn, if_true, true_and]
    rw [bind_run, Out.bind_eq_ub, Prod.exists]
    refine or_congr_right (exists_congr fun n => exists_congr fun t => and_congr_right fun _ => ?_)
    refine (checkOr _ _ t).trans ?_
    split
    · exact key _ t hlt
    · rfl

/-- All pointers lead into memory that exists. -/
def GroundedAlways (x : Act S Ptr) (mem : Mem α) : Prop :=
  ∀ s p t, x s = .ok (p, t) → p.prov.off + p.prov.len ≤ mem.size p.prov.buf

theorem ask_more {β γ : Type} {x : Act S β} {xs : List (Act S β)} {f : β → Act S γ}
    {P : List β → S → Prop} {s : S}
    (h : ∀ v t, f v t = .ub ↔ FaultyRun xs t ∨ ∃ vs u, Says xs t vs u ∧ P (v :: vs) u) :
    (x >>= f) s = .ub ↔ FaultyRun (x :: xs) s ∨ ∃ vs u, Says (x :: xs) s vs u ∧ P vs u := by
  rw [bind_run, Out.bind_eq_ub, Prod.exists, faultyRun_cons, or_assoc]
  refine or_congr_right ?_
  simp only [h]
  constructor
  · rintro ⟨v, t, h1, h2 | ⟨vs, u, h2, h3⟩⟩
    · exact .inl ⟨v, t, h1, h2⟩
    · exact .inr ⟨v :: vs, u, ⟨v, t, vs, h1, rfl, h2⟩, h3⟩
  · rintro (⟨v, t, h1, h2⟩ | ⟨vs, u, ⟨v, t, ws, h1, rfl, h2⟩, h3⟩)
    · exact ⟨v, t, h1, .inl h2⟩
    · exact ⟨v, t, h1, .inr ⟨ws, u, h2, h3⟩⟩

theorem ask_done {β γ : Type} {f : Act S γ} {P : List β → S → Prop} {s : S}
    (h : f s = .ub ↔ P [] s) : f s = .ub ↔ FaultyRun ([] : List (Act S β)) s ∨
      ∃ vs u, Says [] s vs u ∧ P vs u := by
  simp [faultyRun_nil, Says, h]

theorem ask3 {β γ : Type} {x y z : Act S β} {f : β → β → β → Act S γ}
    {P : β → β → β → S → Prop} {s : S} (h : ∀ a b c t, f a b c t = .ub ↔ P a b c t) :
    (x >>= fun a => y >>= fun b => z >>= fun c => f a b c) s = .ub ↔ FaultyRun [x, y, z] s ∨
      ∃ a b c t, Says [x, y, z] s [a, b, c] t ∧ P a b c t := by
  refine (ask_more (P := fun vs t => ∃ a b c, vs = [a, b, c] ∧ P a b c t) fun a _ =>
    ask_more fun b _ => ask_more fun c t => ask_done ?_).trans (or_congr_right ?_)
  · simp [h]
  · constructor
    · rintro ⟨_, t, h1, a, b, c, rfl, h2⟩; exact ⟨a, b, c, t, h1, h2⟩
    · rintro ⟨a, b, c, t, h1, h2⟩; exact ⟨_, t, h1, a, b, c, rfl, h2⟩

theorem ask6 {β γ : Type} {x1 x2 x3 x4 x5 x6 : Act S β} {f : β → β → β → β → β → β → Act S γ}
    {P : β → β → β → β → β → β → S → Prop} {s : S}
    (h : ∀ a b c d e g t, f a b c d e g t = .ub ↔ P a b c d e g t) :
    (x1 >>= fun a => x2 >>= fun b => x3 >>= fun c => x4 >>= fun d => x5 >>= fun e => x6 >>= fun g =>
      f a b c d e g) s = .ub ↔ FaultyRun [x1, x2, x3, x4, x5, x6] s ∨
      ∃ a b c d e g t, Says [x1, x2, x3, x4, x5, x6] s [a, b, c, d, e, g] t ∧ P a b c d e g t := by
  refine (ask_more (P := fun vs t => ∃ a b c d e g, vs = [a, b, c, d, e, g] ∧ P a b c d e g t) fun a _ =>
    ask_more fun b _ => ask_more fun c _ => ask_more fun d _ => ask_more fun e _ => ask_more fun g t =>
    ask_done ?_).trans (or_congr_right ?_)
  · simp [h]
  · constructor
    · rintro ⟨_, t, h1, a, b, c, d, e, g, rfl, h2⟩; exact ⟨a, b, c, d, e, g, t, h1, h2⟩
    · rintro ⟨a, b, c, d, e, g, t, h1, h2⟩; exact ⟨_, t, h1, a, b, c, d, e, g, rfl, h2⟩

theorem check_run {p : Prop} [Decidable p] {β : Type} (y : Act S β) (t : S) :
    (act (Out.assert p) >>= fun _ => y) t = .ub ↔ p ∧ y t = .ub := by
  rw [bind_run]
  by_cases h : p
  · rw [Out.assert_pos h]; simp [act, h]
  · rw [Out.assert_neg h]; simp [act, h]

theorem ask_grounded {γ : Type} {x y z : Act S Ptr} {mem : Mem α} (hx : GroundedAlways x mem)
    (hy : GroundedAlways y mem) (hz : GroundedAlways z mem) {f : Ptr → Ptr → Ptr → Act S γ}
    {P : Ptr → Ptr → Ptr → Prop} {s : S}
    (h : ∀ a b c t, a.prov.off + a.prov.len ≤ mem.size a.prov.buf →
      b.prov.off + b.prov.len ≤ mem.size b.prov.buf → c.prov.off + c.prov.len ≤ mem.size c.prov.buf →
      (f a b c t = .ub ↔ P a b c)) :
    (x >>= fun a => y >>= fun b => z >>= fun c => f a b c) s = .ub ↔ FaultyRun [x, y, z] s ∨
      ∃ a b c t, Says [x, y, z] s [a, b, c] t ∧ P a b c := by
  refine (ask3 (P := fun a b c t => f a b c t = .ub) fun _ _ _ _ => Iff.rfl).trans (or_congr_right ?_)
  refine exists_congr fun a => exists_congr fun b => exists_congr fun c => exists_congr fun t =>
    and_congr_right fun hs => ?_
  obtain ⟨a', s1, ws, h1, e, b', s2, ws', h2, e', c', s3, ws'', h3, e'', -⟩ := hs
  obtain ⟨rfl, rfl⟩ := List.cons.inj e
  obtain ⟨rfl, rfl⟩ := List.cons.inj e'
  obtain ⟨rfl, rfl⟩ := List.cons.inj e''
  exact h _ _ _ t (hx _ _ _ h1) (hy _ _ _ h2) (hz _ _ _ h3)

/-- **C86, exactly**: products of matrices with any implementations whatever that change, if their
pointers lead into memory. `matmul` is undefined exactly if the first call that does not return is,
or all return, the dimensions answered are compatible, and the strides answered lead from the
pointers answered outside what these may access, or to the same place twice, or from the result to an
operand. -/
theorem C86_exact_product [Target] (A₁ : Acts S α V₁ D₁ X₁) (A₂ : Acts S α V₂ D₂ X₂)
    (A₃ : Acts S α V₃ D₃ X₃) (kern : Kern α) (alpha beta : α) (a : AnyBase V₁ D₁) (b : AnyBase V₂ D₂)
    (c : AnyBase V₃ D₃) (mem : Mem α) (ha : GroundedAlways (A₁.dat.get_pointer a.data) mem)
    (hb : GroundedAlways (A₂.dat.get_pointer b.data) mem)
    (hc : GroundedAlways (A₃.dat.get_pointer_mut c.data) mem) (s : S) :
    A₁.matmul A₂ A₃ kern alpha a b beta c mem s = .ub ↔
      ProductFaultyRun (A₁.lay.dim a.layout) (A₂.lay.dim b.layout) (A₃.lay.dim c.layout)
        (A₁.lay.stride a.layout) (A₂.lay.stride b.layout) (A₃.lay.stride c.layout)
        (A₁.dat.get_pointer a.data) (A₂.dat.get_pointer b.data) (A₃.dat.get_pointer_mut c.data) s := by
  unfold Acts.matmul ProductFaultyRun
  refine ask3 fun x y z s1 => (check_run _ s1).trans (and_congr_right fun hd => ?_)
  refine ask6 fun u u' v v' w w' s2 => ?_
  refine (ask_grounded ha hb hc) fun p q r t hp hq hr => ?_
  rw [act_run, Out.bind_eq_ub]
  simp only [reduceCtorEq, and_false, exists_false, or_false]
  rw [gemm_ub_iff hp hq hr, ← kernelFits_iff (u.1, u'.2) (v.1, v'.2) (w.1, w'.2) p q r hd]

theorem ask2 {β γ : Type} {x y : Act S β} {f : β → β → Act S γ}
    {P : β → β → S → Prop} {s : S} (h : ∀ a b t, f a b t = .ub ↔ P a b t) :
    (x >>= fun a => y >>= fun b => f a b) s = .ub ↔ FaultyRun [x, y] s ∨
      ∃ a b t, Says [x, y] s [a, b] t ∧ P a b t := by
  refine (ask_more (P := fun vs t => ∃ a b, vs = [a, b] ∧ P a b t) fun a _ =>
    ask_more fun b t => ask_done ?_).trans (or_congr_right ?_)
  · simp [h]
  · constructor
    · rintro ⟨_, t, h1, a, b, rfl, h2⟩; exact ⟨a, b, t, h1, h2⟩
    · rintro ⟨a, b, t, h1, h2⟩; exact ⟨_, t, h1, a, b, rfl, h2⟩

theorem GroundedAlways.append {x : Act S Ptr} {mem : Mem α} (h : GroundedAlways x mem) (ys : List α) :
    GroundedAlways x (⟨mem.bufs ++ [ys]⟩ : Mem α) :=
  fun s p t hp => Backed.append (d := p.prov) (h s p t hp) ys

/-- **C86, exactly**: `dot` asks for the dimensions, makes the result, and asks for everything again.
It is undefined exactly if the first answers are, or a result can be made for them and what is
answered after that makes the product with it undefined. -/
theorem C86_exact_dot [Target] [Zero α] [One α] (A₁ : Acts S α V₁ D₁ X₁) (A₂ : Acts S α V₂ D₂ X₂)
    (cfg : Cfg) (kern : Kern α) (i : DotImpl) (a : AnyBase V₁ D₁) (b : AnyBase V₂ D₂) (mem : Mem α)
    (ha : GroundedAlways (A₁.dat.get_pointer a.data) mem)
    (hb : GroundedAlways (A₂.dat.get_pointer b.data) mem) (s : S) :
    A₁.dot A₂ cfg kern i a b mem s = .ub ↔
      FaultyRun [A₁.lay.dim a.layout, A₂.lay.dim b.layout] s ∨
      ∃ x y t, Says [A₁.lay.dim a.layout, A₂.lay.dim b.layout] s [x, y] t ∧
        ∃ R, dotMade cfg i x y mem.bufs.length = some R ∧
          ProductFaultyRun (A₁.lay.dim a.layout) (A₂.lay.dim b.layout) (act (.ok R.layout.dim))
            (A₁.lay.stride a.layout) (A₂.lay.stride b.layout) (act (.ok (claimed R.layout)))
            (A₁.dat.get_pointer a.data) (A₂.dat.get_pointer b.data) (act (.ok ⟨R.data, 0⟩)) t := by
  unfold Acts.dot
  refine ask2 fun x y t => ?_
  have run : ∀ {β γ : Type} (o : Out β) (f : β → Act S γ) (t : S),
      (act o >>= f) t = (o >>= fun b => f b t) := by
    intro β γ o f t
    rw [bind_run]
    cases o <;> rfl
  rw [run]
  refine (iff_of_eq (congrArg (fun o : Out (BaseMatrix × Mem α) => (o >>= fun x =>
    (A₁.matmul A₂ ((crateImpls cfg α).still S) kern 1 a b 0 ⟨x.1.data, x.1.layout⟩ x.2 >>= fun mem2 =>
      (pure (x.1, mem2) : Act S _)) t) = .ub) (dot_made cfg i x y mem))).trans ?_
  cases hR : dotMade cfg i x y mem.bufs.length with
  | none => simp
  | some R =>
    obtain ⟨h1, h2⟩ := dotMade_some hR
    have hg : GroundedAlways (((crateImpls cfg α).still S).dat.get_pointer_mut R.data)
        (⟨mem.bufs ++ [List.replicate R.data.len 0]⟩ : Mem α) := by
      intro s p t hp
      obtain ⟨rfl, -⟩ : (⟨R.data, 0⟩ : Ptr) = p ∧ s = t := by
        simpa [crateImpls, Impls.still, DataImpl.still, crateContainers, Container.get_pointer, act]
          using hp
      rw [show (⟨R.data, 0⟩ : Ptr).prov = ⟨mem.bufs.length, 0, R.data.len⟩ from h1]
      simp [Mem.size]
    have hm := C86_exact_product A₁ A₂ ((crateImpls cfg α).still S) kern 1 0 a b ⟨R.data, R.layout⟩ _
      (ha.append (List.replicate R.data.len 0)) (hb.append _) hg t
    rw [Out.bind_ok, bind_run, Out.bind_eq_ub]
    simp only [pure_run, reduceCtorEq, and_false, exists_false, or_false, Option.some.injEq,
      exists_eq_left']
    rw [hm]
    simp only [crateImpls, crateLayouts, crateContainers, Container.get_pointer, h2, Impls.still,
      LayoutImpl.still, DataImpl.still]

/-- **C86, exactly**: blocks and splits of a matrix with a layout of the crate over a container that
changes: as in C75, with what the container answers to the one call. -/
theorem C86_exact_views [Target] (get_pointer : D → Act S Ptr) (cfg : Cfg) (m : AnyBase Layout D)
    (tl dim : Nat × Nat) (s : S) :
    (IsMajor m.layout → (Acts.blockWith get_pointer cfg m tl dim s = .ub ↔
      BlockFaulty cfg m.layout (get_pointer m.data s >>= fun r => .ok r.1) tl dim)) ∧
    (∀ l, m.layout = .rowMajor l → (Acts.splitWith get_pointer cfg m tl s = .ub ↔
      get_pointer m.data s = .ub ∨ ∃ p t, get_pointer m.data s = .ok (p, t) ∧
        LeavesContainer (splitReach cfg m.layout p tl))) := by
  have ub : ∀ {β : Type} {x : Out (β × S)} {y : Out β}, (x >>= fun r => .ok r.1) = y →
      (x = .ub ↔ y = .ub) := by
    rintro β x y rfl
    cases x <;> simp
  let I : DataImpl Unit D := ⟨fun _ _ _ => .panic, fun _ _ => .panic,
    fun x => get_pointer x s >>= fun r => .ok r.1, fun x => get_pointer x s >>= fun r => .ok r.1,
    fun _ => .panic⟩
  constructor
  · intro hm
    exact (ub (C86_blocks get_pointer cfg m tl dim s)).trans (C75_exact_block I cfg m tl dim hm).1
  · intro l hl
    refine ((ub (C86_split get_pointer I s (fun _ => rfl) cfg m tl)).trans
      (C75_exact_split I cfg m tl l hl)).trans (or_congr ?_ ?_)
    · exact (ub rfl).symm
    · simp only [I, Out.bind_eq_ok, Prod.exists, Out.ok.injEq]
      constructor
      · rintro ⟨p, ⟨q, t, h1, rfl⟩, h2⟩; exact ⟨q, t, h1, h2⟩
      · rintro ⟨p, t, h1, h2⟩; exact ⟨p, ⟨p, t, h1, rfl⟩, h2⟩

theorem askDim_run (A : Acts S α V D X) (m : AnyMat α V D X) :
    askDim A m = A.layout m >>= A.lay.dim := by
  funext s
  rw [bind_run, askDim]
  cases A.layout m s <;> rfl

theorem askIndex_run (A : Acts S α V D X) (m : AnyMat α V D X) :
    askIndex A m = A.layout m >>= A.lay.index_layout := by
  funext s
  rw [bind_run, askIndex]
  cases A.layout m s <;> rfl

/-- What a failing assertion asks for before it panics. -/
theorem message2 {β : Type} {x y : Act S β} {γ : Type} {p : Prop} [Decidable p] (f : Act S γ) (s : S) :
    (assertOr p (x >>= fun _ => y >>= fun _ => pure ()) >>= fun _ => f) s = .ub ↔
      if p then f s = .ub else FaultyRun [x, y] s := by
  by_cases h : p
  · rw [assertOr_pos h, if_pos h]; rfl
  · rw [assertOr_neg h, if_neg h]
    simp only [bind_assoc]
    refine (ask2 (P := fun _ _ _ => False) fun a b t => ?_).trans ?_
    · exact iff_of_false (by rintro ⟨⟩) id
    · simp

theorem addition_run (A : Acts S α V D X) (m1 m2 : AnyMat α V D X) :
    A.addition_new m1 m2 = askDim A m1 >>= fun d1 => askDim A m2 >>= fun d2 =>
      assertOr (d1 = d2) (askDim A m1 >>= fun _ => askDim A m2 >>= fun _ => pure ()) >>= fun _ =>
      askIndex A m1 >>= fun l => pure (.addition m1 m2 l) := by
  simp only [Acts.addition_new, askDim_run, askIndex_run, bind_assoc]

/-- **C86, exactly**: sums of any matrices whatever that change. The dimensions of both are asked for.
If they are the same, the first matrix is asked for its layout once more, and the index layout of this
answer is that of the sum. If not, both are asked again for the message, before the panic. -/
theorem C86_exact_sums (A : Acts S α V D X) (m1 m2 m : AnyMat α V D X) (s u : S) :
    (A.addition_new m1 m2 s = .ok (m, u) ↔
      ∃ d t l, Says [askDim A m1, askDim A m2] s [d, d] t ∧ askIndex A m1 t = .ok (l, u) ∧
        m = .addition m1 m2 l) ∧
    (A.addition_new m1 m2 s = .ub ↔ FaultyRun [askDim A m1, askDim A m2] s ∨
      ∃ d1 d2 t, Says [askDim A m1, askDim A m2] s [d1, d2] t ∧
        if d1 = d2 then askIndex A m1 t = .ub else FaultyRun [askDim A m1, askDim A m2] t) := by
  rw [addition_run]
  constructor
  · simp only [bind_run, Out.bind_eq_ok, Says]
    constructor
    · rintro ⟨⟨d1, t1⟩, h1, ⟨d2, t2⟩, h2, ⟨_, t3⟩, h3, ⟨l, t4⟩, h4, h5⟩
      by_cases hd : d1 = d2
      · subst hd
        rw [assertOr_pos rfl] at h3
        cases h3; cases h5
        exact ⟨d1, t2, l, ⟨d1, t1, [d1], h1, rfl, d1, t2, [], h2, rfl, rfl, rfl⟩, h4, rfl⟩
      · rw [assertOr_neg hd, bind_run, Out.bind_eq_ok] at h3
        obtain ⟨x, -, h3⟩ := h3
        cases h3
    · rintro ⟨d, t, l, ⟨d1, t1, w1, h1, e1, d2, t2, w2, h2, e2, e3, e4⟩, h4, rfl⟩
      obtain ⟨rfl, rfl⟩ := List.cons.inj e1
      obtain ⟨rfl, rfl⟩ := List.cons.inj e2
      subst e4
      exact ⟨(d, t1), h1, (d, t2), h2, ((), t2), by rw [assertOr_pos rfl]; rfl, (l, u), h4, rfl⟩
  · refine ask2 fun d1 d2 t => (message2 _ t).trans ?_
    split
    · rw [bind_run, Out.bind_eq_ub]
      exact or_iff_left (by rintro ⟨x, -, h⟩; cases h)
    · rfl

/-- **C86, exactly**: new matrices of any layout and container whatever that change: both numbers of
elements are asked for, and, if the layout needs more, both again for the message. -/
theorem C86_exact_new (A : Acts S α V D X) (d : D) (l : V) (m : AnyBase V D) (s u : S) :
    (A.new d l s = .ok (m, u) ↔ m = ⟨d, l⟩ ∧ ∃ n k,
      Says [A.lay.number_of_elements l, A.dat.number_of_elements d] s [n, k] u ∧ n ≤ k) ∧
    (A.new d l s = .ub ↔ FaultyRun [A.lay.number_of_elements l, A.dat.number_of_elements d] s ∨
      ∃ n k t, Says [A.lay.number_of_elements l, A.dat.number_of_elements d] s [n, k] t ∧ k < n ∧
        FaultyRun [A.dat.number_of_elements d, A.lay.number_of_elements l] t) := by
  unfold Acts.new
  constructor
  · simp only [bind_run, Out.bind_eq_ok, Says]
    constructor
    · rintro ⟨⟨n, t1⟩, h1, ⟨k, t2⟩, h2, ⟨_, t3⟩, h3, h4⟩
      by_cases hd : n ≤ k
      · rw [assertOr_pos hd] at h3
        cases h3; cases h4
        exact ⟨rfl, n, k, ⟨n, t1, [k], h1, rfl, k, t2, [], h2, rfl, rfl, rfl⟩, hd⟩
      · rw [assertOr_neg hd, bind_run, Out.bind_eq_ok] at h3
        obtain ⟨x, -, h3⟩ := h3
        cases h3
    · rintro ⟨rfl, n, k, ⟨n1, t1, w1, h1, e1, k1, t2, w2, h2, e2, e3, e4⟩, hd⟩
      obtain ⟨rfl, rfl⟩ := List.cons.inj e1
      obtain ⟨rfl, rfl⟩ := List.cons.inj e2
      subst e4
      exact ⟨(n, t1), h1, (k, t2), h2, ((), t2), by rw [assertOr_pos hd]; rfl, rfl⟩
  · refine ask2 fun n k t => (message2 _ t).trans ?_
    by_cases hd : n ≤ k
    · rw [if_pos hd]
      exact iff_of_false (by rintro ⟨⟩) (by omega)
    · rw [if_neg hd]
      exact ⟨fun h => ⟨by omega, h⟩, fun h => h.2⟩

/-! ## Examples -/

theorem blinking_never : NeverUndefined blinking := fun s => (blinking_keeps s).1

/-- The layout of `C86_false_each`: the third element is missed when it is asked for after the state
has turned over, and evaluation misses a cell; reads of the first element are defined in any state. -/
example : let b : AnyBase Unit Container := ⟨⟨0, 0, 3⟩, ()⟩
    let m : AnyMat Int Unit Container Empty := .base b
    (∃ d t, blinking.dim () true = .ok (d, t) ∧ 2 < d.1 ∧ 0 < d.2 ∧ Misses (aims2d blinking m 2 0) t) ∧
    EvalMisses blinking () dbg m false ∧
    FaultyRun ((sources m).map (call2d blinkingActs threeMem 2 0)) false ∧
    ∀ s, blinkingActs.get m threeMem 0 0 s ≠ .ub := by
  intro b m
  have hm : ∀ x ∈ origins m, x.data.off + x.data.len ≤ threeMem.size x.data.buf := by
    intro x hx
    obtain rfl : x = b := by simpa [m, origins_base] using hx
    decide
  have h := fun r s => C86_exact (σ := Unit) blinking blinking_never () dbg threeMem m b hm (by decide)
    r 0 0 (fun x v => (x, v)) () s
  refine ⟨(h 2 true).1.1 rfl, (h 0 false).2.2.2.2.2.1 (by rfl), ?_, fun s he => ?_⟩
  · rcases (C86_exact_reads blinkingActs threeMem m 2 0 0 true).1.1 rfl with h | ⟨l, s1, h1, h | ⟨d, s2, h2, h3⟩⟩
    · cases h
    · cases h1; cases h
    · cases h1; cases h2; exact h3.2.2
  · obtain ⟨d, t, h1, -, -, h2⟩ := (h 0 s).1.1 he
    obtain ⟨k, u, h3, h4⟩ := misses_one.1 h2
    cases s <;> cases h1 <;> cases h3 <;> exact absurd h4 (by decide)

/-- A column of one, two or three elements by turns, always from the first cell on. -/
def breathing : LayoutActs Nat Unit where
  stride _ := fun s => .ok ((if s % 2 = 0 then 2 else 1, if s % 2 = 0 then 1 else 2), s + 1)
  dim _ := fun s => .ok ((s % 3 + 1, 1), s + 1)
  number_of_elements _ := fun s => .ok (s % 3 + 1, s + 1)
  convert_1d_2d _ i := fun s => .ok ((i, 0), s + 1)
  convert_2d_1d _ r _ := fun s => .ok (r, s + 1)
  convert_1d_raw _ i := fun s => .ok (i, s + 1)
  convert_2d_raw _ r _ := fun s => .ok (r, s + 1)
  index_layout _ := fun s => .ok ((), s + 1)
  from_dimension _ _ := fun s => .ok ((), s + 1)

theorem breathing_never : NeverUndefined breathing :=
  fun _ => ⟨nofun, nofun, nofun, nofun, nofun, nofun, nofun, nofun, nofun⟩

/-- Its shape changes, so that it is not `Steady`, and still all its reads over three elements are
defined (`C86_contract`); over two elements they are not. -/
example [Target] : (∀ (kind : Unit → Unit) (shape : Unit → Nat × Nat) (size : Unit → Nat),
      ¬ Steady breathing (fun _ => True) kind shape size) ∧
    (∀ r c s, (actsOverCrate breathing Int).get (.base ⟨⟨0, 0, 3⟩, ()⟩) threeMem r c s ≠ .ub) ∧
    ¬ ∀ r c s, (actsOverCrate breathing Int).get (.base ⟨⟨0, 0, 2⟩, ()⟩) threeMem r c s ≠ .ub := by
  refine ⟨fun kind shape size h => ?_, ((C86_contract breathing breathing_never threeMem
    ⟨⟨0, 0, 3⟩, ()⟩ (by decide)).2 ⟨?_, ?_⟩).1, fun h => h 2 0 2 rfl⟩
  · have h0 := h.dim () 0 trivial
    have h1 := h.dim () 1 trivial
    rcases h0 with h0 | ⟨x, h0, -, h0'⟩
    · cases h0
    rcases h1 with h1 | ⟨y, h1, -, h1'⟩
    · cases h1
    cases h0
    cases h1
    rw [← h1'] at h0'
    cases h0'
  · intro s d t hd r c hr hc k u hk
    cases hd
    cases hk
    simp only at hr ⊢
    omega
  · intro s d t hd i hi k u hk
    cases hd
    cases hk
    simp only at hi ⊢
    omega

/-- A 2 × 2 matrix whose strides are now those of rows and now those of columns. -/
def tilting : LayoutActs Nat Unit := { breathing with dim := fun _ s => .ok ((2, 2), s + 1) }

/-- The kernel gets the row stride of one answer and the column stride of the other, and leaves the
container, although the strides of either answer fit. -/
example : let A := actsOverCrate tilting Int
    let b : AnyBase Unit Container := ⟨⟨0, 0, 4⟩, ()⟩
    let R := (crateImpls dbg Int).still Nat
    ProductFaultyRun (A.lay.dim b.layout) (A.lay.dim b.layout)
      (R.lay.dim (.rowMajor ⟨(2, 2)⟩)) (A.lay.stride b.layout) (A.lay.stride b.layout)
      (R.lay.stride (.rowMajor ⟨(2, 2)⟩)) (A.dat.get_pointer b.data)
      (A.dat.get_pointer b.data) (R.dat.get_pointer_mut ⟨1, 0, 4⟩) 0 ∧
    ¬ ProductFaulty (.ok (2, 2)) (.ok (2, 2)) (.ok (2, 2)) (.ok (2, 1)) (.ok (1, 2)) (.ok (2, 1))
      (.ok ⟨⟨0, 0, 4⟩, 0⟩) (.ok ⟨⟨0, 0, 4⟩, 0⟩) (.ok ⟨⟨1, 0, 4⟩, 0⟩) := by
  intro A b R
  let mem : Mem Int := ⟨[[1, 2, 3, 4], [0, 0, 0, 0]]⟩
  constructor
  · refine (C86_exact_product A A R exactKern 1 0 b b ⟨⟨1, 0, 4⟩, .rowMajor ⟨(2, 2)⟩⟩ mem ?_ ?_ ?_ 0).1
      (by decide)
    all_goals
      intro s p t h
      cases h
      decide
  · intro h
    rcases h with h | ⟨x, y, z, hx, hy, hz, -, h | ⟨u, v, w, p, q, r, hu, hv, hw, hp, hq, hr, h⟩⟩
    · simp [faulty_cons, faulty_nil, said] at h
    · simp [faulty_cons, faulty_nil, said] at h
    · cases hx; cases hy; cases hz; cases hu; cases hv; cases hw; cases hp; cases hq; cases hr
      exact h ((kernelFits_iff (2, 1) (1, 2) (2, 1) ⟨⟨0, 0, 4⟩, 0⟩ ⟨⟨0, 0, 4⟩, 0⟩ ⟨⟨1, 0, 4⟩, 0⟩
        ⟨rfl, rfl, rfl⟩).2 (by decide))

/-- A container that says ten, then one, and so on, and hands out a pointer to one element. A mutable
slice asks twice: it is undefined if the second answer is ten. -/
example : let A : DataActs Bool Int Unit := ⟨fun _ _ _ s => .ok (0, s), fun _ _ s => .ok (⟨0, 0⟩, s),
      fun _ s => .ok (⟨⟨0, 0, 1⟩, 0⟩, s), fun _ s => .ok (⟨⟨0, 0, 1⟩, 0⟩, s),
      fun _ s => .ok (if s then 10 else 1, !s)⟩
    SliceFaultyRun (A.number_of_elements ()) (A.get_pointer ()) 0 5 true ∧
    ¬ SliceFaultyRun (A.number_of_elements ()) (A.get_pointer ()) 0 5 false ∧
    SliceMutFaultyRun (A.number_of_elements ()) (A.get_pointer_mut ()) 0 5 false ∧
    ¬ SliceMutFaultyRun (A.number_of_elements ()) (A.get_pointer_mut ()) 0 5 true := by
  intro A
  have h := fun s => C86_exact_slices A () 0 5 s
  have e1 : A.get_slice () 0 5 false = .panic := rfl
  have e2 : A.get_slice_mut () 0 5 true = .panic := rfl
  have f1 := (h false).1
  have f2 := (h true).2
  rw [e1] at f1
  rw [e2] at f2
  exact ⟨(h true).1.1 rfl, fun hf => (nomatch f1.2 hf), (h false).2.1 rfl,
    fun hf => (nomatch f2.2 hf)⟩

/-- A matrix that answers with a 2x2 layout of a kind that counts how often it was asked, and whose
fourth layout is undefined: the sum has the index layout of the third answer; with a matrix of another
shape the sum is undefined, because the message asks once more. -/
def counting : Acts Nat Int (Nat × Nat) Unit (Nat × Nat) where
  lay := ⟨fun _ s => .ok ((1, 1), s), fun l s => .ok ((l.2, l.2), s), fun l s => .ok (l.2 * l.2, s),
    fun _ i s => .ok ((i, 0), s), fun _ r _ s => .ok (r, s), fun _ i s => .ok (i, s),
    fun _ r _ s => .ok (r, s), fun l s => .ok ((l.1 + 10, l.2), s), fun l _ s => .ok (l, s)⟩
  dat := ⟨fun _ _ _ s => .ok (0, s), fun _ _ s => .ok (⟨0, 0⟩, s), fun _ s => .ok (⟨⟨0, 0, 1⟩, 0⟩, s),
    fun _ s => .ok (⟨⟨0, 0, 1⟩, 0⟩, s), fun _ s => if s = 1 then .ub else .ok (3, s + 1)⟩
  mat := ⟨fun x s => if s = 3 then .ub else .ok ((s, x.2), s + 1), fun _ _ _ _ s => .ok (0, s),
    fun _ _ _ s => .ok (0, s)⟩

example : (∃ d t l, Says [askDim counting (.user (0, 2)), askDim counting (.user (0, 2))] 0 [d, d] t ∧
      askIndex counting (.user (0, 2)) t = .ok (l, 3) ∧ l = (12, 2)) ∧
    counting.addition_new (.user (0, 2)) (.user (0, 5)) 4 = .panic ∧
    counting.addition_new (.user (0, 2)) (.user (0, 5)) 1 = .ub ∧
    counting.new () (0, 2) 0 = .ub ∧ counting.new () (0, 1) 0 = .ok (⟨(), (0, 1)⟩, 1) := by
  refine ⟨?_, ?_, ?_, ?_, ?_⟩
  · obtain ⟨d, t, l, h1, h2, h3⟩ := (C86_exact_sums counting (.user (0, 2)) (.user (0, 2))
      (.addition (.user (0, 2)) (.user (0, 2)) (12, 2)) 0 3).1.1 rfl
    cases h3
    exact ⟨d, t, _, h1, h2, rfl⟩
  · rfl
  · rfl
  · exact (C86_exact_new counting () (0, 2) ⟨(), (0, 2)⟩ 0 0).2.2 (.inr ⟨4, 3, 1,
      ⟨4, 0, _, rfl, rfl, 3, 1, _, rfl, rfl, rfl, rfl⟩, by decide, faultyRun_cons.2 (.inl rfl)⟩)
  · rfl

end Householder.Props
