import Verif.Lemmas.Stateful
import Verif.Props.TraitsMul

/-!
# Implementations of the open traits that change (C86)
-/

namespace Householder.Props

open Spec

variable {S α V D X κ V₁ D₁ X₁ V₂ D₂ X₂ V₃ D₃ X₃ : Type}

/-! ## The statement, and why it is false -/

/-- The full statement of C86: with a layout that changes but keeps the contract of C74 at every
moment, over a container of the crate, safe access is defined, and so is evaluation. -/
def C86_statement [Target] : Prop :=
  ∀ (S V κ : Type) (L : LayoutActs S V) (kind : V → κ) (cfg : Cfg) (mem : Mem Int) (d : Container)
    (l : V) (s : S) (r c i : Nat),
    ContainerOK d mem →
    (∀ s, SafeLayout (L.frozen s) ∧ Logical (L.frozen s) kind ∧ Addresses (L.frozen s) l d.len) →
    let A : Acts S Int V Container Empty := ⟨L, (crateContainers Int).still S, ⟨nofun, nofun, nofun⟩⟩
    A.get (.base ⟨d, l⟩) mem r c s ≠ .ub ∧ A.get1d (.base ⟨d, l⟩) mem i s ≠ .ub ∧
    A.eval l cfg (.base ⟨d, l⟩) mem s ≠ .ub

/-- A vector that has three elements and one by turns: the state turns over at every call. While it
has one element, it converts only index 0 to a place that exists. -/
def blinking : LayoutActs Bool Unit where
  stride _ := fun s => .ok ((1, 1), !s)
  dim _ := fun s => .ok ((if s then 3 else 1, 1), !s)
  number_of_elements _ := fun s => .ok (if s then 3 else 1, !s)
  convert_1d_2d _ i := fun s => .ok ((i, 0), !s)
  convert_2d_1d _ r _ := fun s => .ok (r, !s)
  convert_1d_raw _ i := fun s => .ok (if s ∨ i = 0 then i else 100, !s)
  convert_2d_raw _ r _ := fun s => .ok (if s ∨ r = 0 then r else 100, !s)
  index_layout _ := fun s => .ok ((), !s)
  from_dimension _ _ := fun s => .ok ((), !s)

theorem blinking_keeps (s : Bool) : SafeLayout (blinking.frozen s) ∧
    Logical (blinking.frozen s) (fun _ => ()) ∧ Addresses (blinking.frozen s) () 3 := by
  refine ⟨⟨nofun, nofun, nofun, nofun, nofun, nofun, nofun, nofun, nofun⟩, ⟨?_, ?_, ?_, ?_⟩, ⟨?_, ?_⟩⟩
  · intro l l' _ _; rfl
  · intro l l' _; exact ⟨rfl, rfl⟩
  · intro l d l' h _; exact ⟨rfl, h⟩
  · intro l d l' n _ hn
    have hn : (if s then 3 else 1) = n := by simpa [blinking, LayoutActs.frozen] using hn
    have hr : ∀ i, i < n → (if s = true ∨ i = 0 then i else 100) = i := by
      intro i hi
      rw [if_pos]
      cases s
      · simp only [Bool.false_eq_true, if_false] at hn; right; omega
      · exact .inl rfl
    refine ⟨fun i hi => .inr ⟨_, rfl, ?_⟩, fun i j k hi hj h1 h2 => ?_⟩
    · rw [hr i hi]; exact hi
    · have h1 : (if s = true ∨ i = 0 then i else 100) = k := by
        simpa [blinking, LayoutActs.frozen] using h1
      have h2 : (if s = true ∨ j = 0 then j else 100) = k := by
        simpa [blinking, LayoutActs.frozen] using h2
      rw [hr i hi] at h1; rw [hr j hj] at h2; omega
  · refine .inr ⟨_, rfl, fun r c hr hc => .inr ⟨_, rfl, ?_⟩⟩
    have h1 := hr; have h2 := hc; cases s <;> simp at h1 h2 ⊢ <;> first | omega | (split <;> omega)
  · refine .inr ⟨_, rfl, fun i hi => .inr ⟨_, rfl, ?_⟩⟩
    cases s <;> simp at hi ⊢ <;> first | omega | (split <;> omega)

/-- The layout over the crate's containers. -/
def blinkingActs : Acts Bool Int Unit Container Empty :=
  ⟨blinking, (crateContainers Int).still Bool, ⟨nofun, nofun, nofun⟩⟩

/-- **C86 is false of the code**: the library asks for the dimension, checks the indices against the
answer, and then asks for the raw index. In between the layout may have changed. -/
theorem C86_false [Target] : ¬ C86_statement := by
  intro h
  exact (h Bool Unit Unit blinking (fun _ => ()) dbg threeMem ⟨0, 0, 3⟩ () true 2 0 0
    ⟨by decide_width, by decide_width⟩ blinking_keeps).1 rfl

/-- **C86**, in detail: all three operations are undefined with that layout. `eval` makes room for
one element, checks that it is enough for one element, and then copies three. -/
theorem C86_false_each [Target] :
    blinkingActs.get (.base ⟨⟨0, 0, 3⟩, ()⟩) threeMem 2 0 true = .ub ∧
    blinkingActs.get1d (.base ⟨⟨0, 0, 3⟩, ()⟩) threeMem 2 true = .ub ∧
    blinkingActs.eval () dbg (.base ⟨⟨0, 0, 3⟩, ()⟩) threeMem false = .ub :=
  ⟨rfl, rfl, by rfl_width⟩

/-! ## Under the contract -/

/-- **C86, partial**: reads. If `dim` and `number_of_elements` do not change, and all conversions
and accesses stay inside at every moment, then safe reads of any expression are defined, however
else the implementations change. Missing: implementations whose shape changes (`C86_false`). -/
theorem C86_reads_partial [Add α] [Mul α] (A : Acts S α V D X) (Inv : S → Prop) (kind : V → κ)
    (shape : V → Nat × Nat) (size : V → Nat) (hS : Steady A.lay Inv kind shape size) (mem : Mem α)
    (m : AnyMat α V D X) (l0 : V) (h : Grown A Inv kind shape size mem m l0) (r c i : Nat) :
    Always Inv (A.get m mem r c) (fun _ => r < (shape l0).1 ∧ c < (shape l0).2) ∧
    Always Inv (A.get1d m mem i) (fun _ => i < size l0) := by
  have ho := grown_offers hS h
  constructor
  · refine always_bind ho.layout fun l hl => always_bind (hS.dim l) fun d hd => ?_
    rw [hl.2] at hd
    subst hd
    exact always_dimension fun hr hc => always_mono (ho.positions r c hr hc) fun _ _ => ⟨hr, hc⟩
  · refine always_bind ho.layout fun l hl => always_bind (hS.number l) fun n hn => ?_
    rw [hS.alike _ _ hl.1 hl.2] at hn
    subst hn
    exact always_assert fun hi => always_mono
      (ho.indices mem ⟨le_refl _, fun _ _ => rfl⟩ i hi) fun _ _ => hi

/-- **C86, partial**: writes. Under the same contract mutable access gives places that exist,
`for_each` is defined and keeps the extent of memory, and slices are defined. -/
theorem C86_writes_partial {σ : Type} (A : Acts S α V D X) (Inv : S → Prop) (kind : V → κ)
    (shape : V → Nat × Nat) (size : V → Nat) (hS : Steady A.lay Inv kind shape size) (mem : Mem α)
    (b : AnyBase V D) (n : Nat)
    (hl : AddressesAlways A.lay Inv (shape b.layout) (size b.layout) b.layout n)
    (hd : HoldsAlways A.dat Inv b.data mem n) :
    (∀ r c, Always Inv (A.get_mut b r c) fun p => (mem.get? p).isSome) ∧
    (∀ i, Always Inv (A.get1d_mut b i) fun p => (mem.get? p).isSome) ∧
    (∀ (f : σ → α → σ × α) (x : σ), Always Inv (A.for_each b f x mem) fun y =>
      ∀ q, y.2.size q = mem.size q) ∧
    (∀ first last, Always Inv (A.dat.get_slice b.data first last) (·.len = last - first)) ∧
    (∀ first last, Always Inv (A.dat.get_slice_mut b.data first last) (·.len = last - first)) := by
  have slice : ∀ (p : Ptr) (k first last : Nat), first < last → last ≤ k → k ≤ n →
      p.off + n ≤ p.prov.len →
      Always Inv (act (p.add first) >>= fun q => act (q.from_raw_parts (last - first)))
        (·.len = last - first) := by
    intro p k first last h1 h2 h3 h4
    rw [← act_bind]
    refine always_act (.inr ⟨⟨p.prov.buf, p.prov.off + (p.off + first), last - first⟩, ?_, rfl⟩)
    simp [Ptr.add, Ptr.from_raw_parts, show p.off + first ≤ p.prov.len by omega,
        show p.off + first + (last - first) ≤ p.prov.len by omega]
  refine ⟨fun r c => ?_, fun i => ?_, fun f x => ?_, fun first last => ?_, fun first last => ?_⟩
  · refine always_bind (hS.dim _) fun d hdim => ?_
    subst hdim
    exact always_dimension fun hr hc => always_bind (hl.positions r c hr hc) fun k hk => hd.place k hk
  · refine always_bind (hS.number _) fun k hk => ?_
    subst hk
    exact always_assert fun hi => always_bind (hl.indices i hi) fun k hk => hd.place k hk
  · refine always_bind (hS.number _) fun k hk => ?_
    subst hk
    refine always_for (fun _ (y : σ × Mem α) => ∀ q, y.2.size q = mem.size q) (fun _ => rfl) ?_
    rintro i ⟨x1, mem1⟩ hi hm
    have hp : Always Inv (A.get1d_unchecked_mut b i) fun p => (mem.get? p).isSome :=
      always_bind (hl.indices i hi) fun k hk => hd.place k hk
    refine always_bind hp fun p hp => ?_
    have hlt : p.idx < mem1.size p.buf := by
      rw [hm]; exact Mem.get?_isSome_iff.1 (Option.isSome_iff_exists.1 hp)
    obtain ⟨v, hv, -⟩ := Mem.read_ok hlt
    obtain ⟨mem2, hw, hu⟩ := Mem.write_upd (v := (f x1 v).2) hlt
    refine always_bind (always_act (P := (· = v)) (.inr ⟨v, hv, rfl⟩)) fun v' e => ?_
    subst e
    refine always_bind (always_act (P := (· = mem2)) (.inr ⟨mem2, hw, rfl⟩)) fun m' e => ?_
    subst e
    exact always_pure fun q => by rw [← hm q]; exact hu.size q
  · exact always_assert fun h1 => always_bind hd.number fun k hk =>
      always_assertOr (always_ask hd.number) fun h2 => always_bind hd.pointer fun p hp => slice p k first last h1 h2 hk hp
  · exact always_assert fun h1 => always_bind hd.number fun _ _ =>
      always_assertOr (always_ask hd.number) fun _ => always_bind hd.number fun k hk =>
      always_assertOr (always_ask hd.number) fun h2 => always_bind hd.pointer_mut fun p hp => slice p k first last h1 h2 hk hp

/-- **C86, partial**: evaluation. Under the same contract `eval` is defined. If it returns, the result
lies in new storage with room for its elements and has the shape of the expression, and memory that
existed before is unchanged. -/
theorem C86_eval_partial [Target] [Zero α] [Add α] [Mul α] (A : Acts S α V D X) (Inv : S → Prop)
    (kind : V → κ) (shape : V → Nat × Nat) (size : V → Nat) (hS : Steady A.lay Inv kind shape size)
    (cfg : Cfg) (mem : Mem α) (m : AnyMat α V D X) (l0 t : V) (ht : kind t = kind l0)
    (h : Grown A Inv kind shape size mem m l0) :
    Always Inv (A.eval t cfg m mem) fun x =>
      Extends mem x.2 ∧ x.1.data = ⟨mem.bufs.length, 0, size l0⟩ ∧
      kind x.1.layout = kind l0 ∧ shape x.1.layout = shape l0 ∧
      x.2.size mem.bufs.length = size l0 := by
  have ho := grown_offers hS h
  refine always_bind ho.layout fun l1 h1 => always_bind (hS.dim _) fun d hd => ?_
  rw [h1.2] at hd
  subst hd
  refine always_bind (hS.new t l0 ht) fun l hl => always_bind (hS.number l) fun n hn => ?_
  rw [hS.alike _ _ hl.1 hl.2.1] at hn
  subst hn
  by_cases hsz : size l0 * cfg.item.size ≤ isizeMax
  swap
  · intro s _
    left
    rw [bind_run]
    simp [Container.newVector, hsz, act]
  simp only [Container.newVector, if_pos hsz]
  rw [act_ok, pure_bind]
  simp only [Mem.alloc_fst, Container.number_of_elements]
  set mem0 := (mem.alloc (List.replicate (size l0) (0 : α))).2 with hmem0
  have hlen0 : mem0.bufs.length = mem.bufs.length + 1 := by simp [hmem0, Mem.alloc]
  refine always_bind (hS.new t l0 ht) fun l' hl' => always_bind (hS.number l') fun _ _ =>
    always_assertOr (always_ask (hS.number l')) fun _ => always_bind ho.layout fun l2 h2 => always_bind (hS.number l2) fun k hk => ?_
  rw [hS.alike _ _ h2.1 h2.2] at hk
  subst hk
  have hsl : size l' = size l0 := hS.alike _ _ hl'.1 hl'.2.1
  refine always_bind (always_for (fun _ mem1 => Extends mem mem1 ∧ mem1.size mem.bufs.length = size l0)
    ⟨⟨by omega, fun q hq => Mem.alloc_get_old _ _ hq⟩, by rw [hmem0, Mem.alloc_size_new]; simp⟩ ?_)
    fun mem1 hm => always_pure ⟨hm.1, rfl, hl'.1, hl'.2.1, hm.2⟩
  rintro i mem1 hi ⟨hx, hs⟩
  refine always_bind (ho.indices mem1 hx i hi) fun v _ =>
    always_bind (hl'.2.2 i (by rw [hsl]; exact hi)) fun j hj => ?_
  rw [hsl] at hj
  simp only [Container.get_unchecked_mut, if_pos hj, Nat.zero_add]
  rw [act_ok, pure_bind]
  obtain ⟨mem2, hw, hu⟩ := Mem.write_upd (mem := mem1) (p := ⟨mem.bufs.length, j⟩) (v := v)
    (by simpa [hs] using hj)
  refine always_act (.inr ⟨mem2, hw, ⟨?_, ?_⟩, by rw [hu.size]; exact hs⟩)
  · rw [hu.nbufs]; exact hx.1
  · intro q hq
    rw [hu.get, if_neg (by intro e; rw [e] at hq; simp at hq)]
    exact hx.2 q hq

/-- **C86, partial**: products. If the dimensions and strides of the operands do not change and lead
from any pointer they hand out to their elements, and the elements of `c` are at different places
and apart from those of `a` and `b`, `matmul` is defined. If it returns, every element of `c` is what
the kernel computes from the elements of `a`, `b` and `c`, and nothing else in memory has changed. -/
theorem C86_product_partial [Target] (A₁ : Acts S α V₁ D₁ X₁) (A₂ : Acts S α V₂ D₂ X₂)
    (A₃ : Acts S α V₃ D₃ X₃) (Inv : S → Prop) (kern : Kern α) (alpha beta : α) (a : AnyBase V₁ D₁)
    (b : AnyBase V₂ D₂) (c : AnyBase V₃ D₃) (mem : Mem α) (da db dc sa sb sc : Nat × Nat)
    (pa pb pc : Nat → Nat → Loc)
    (ha : ExposesAlways A₁ Inv A₁.dat.get_pointer a mem da sa pa)
    (hb : ExposesAlways A₂ Inv A₂.dat.get_pointer b mem db sb pb)
    (hc : ExposesAlways A₃ Inv A₃.dat.get_pointer_mut c mem dc sc pc)
    (hd : Distinct dc pc) (hca : Apart dc pc da pa) (hcb : Apart dc pc db pb) :
    Always Inv (A₁.matmul A₂ A₃ kern alpha a b beta c mem) fun mem' =>
      (da.2 = db.1 ∧ dc.1 = da.1 ∧ dc.2 = db.2) ∧
      (∀ q, mem'.size q = mem.size q) ∧ mem'.bufs.length = mem.bufs.length ∧
      (∀ q, (∀ i j, i < dc.1 → j < dc.2 → q ≠ pc i j) → mem'.get? q = mem.get? q) ∧
      ∀ A B C : Nat → Nat → α,
        (∀ i l, i < da.1 → l < da.2 → mem.get? (pa i l) = some (A i l)) →
        (∀ l j, l < db.1 → j < db.2 → mem.get? (pb l j) = some (B l j)) →
        (∀ i j, i < dc.1 → j < dc.2 → mem.get? (pc i j) = some (C i j)) →
        ∀ i j, i < dc.1 → j < dc.2 → mem'.get? (pc i j) =
          some (kern ⟨dc.1, dc.2, i, j⟩ alpha ((List.range da.2).map fun l => (A i l, B l j)) beta
            (C i j)) := by
  refine always_bind ha.dim fun x ex => always_bind hb.dim fun y ey => always_bind hc.dim fun z ez => ?_
  subst ex ey ez
  refine always_assert fun hcomp => ?_
  refine always_bind ha.strides fun ta e1 => always_bind ha.strides fun _ e2 =>
    always_bind hb.strides fun tb e3 => always_bind hb.strides fun _ e4 =>
    always_bind hc.strides fun tc e5 => always_bind hc.strides fun _ e6 => ?_
  subst e1 e3 e5
  rw [e2, e4, e6]
  refine always_bind ha.pointer fun p la => always_bind hb.pointer fun q lb =>
    always_bind hc.pointer fun r lc => always_act ?_
  obtain ⟨k1, k2, k3⟩ := hcomp
  have hpre : gemmPre x.1 x.2 y.2 p (asIsize ta.1) (asIsize ta.2) q (asIsize tb.1) (asIsize tb.2)
      r (asIsize tc.1) (asIsize tc.2) := by
    refine ⟨fun i hi j hj => (leads_addr la hi hj).1,
      fun i hi j hj => (leads_addr lb (by omega) hj).1,
      fun i hi j hj => (leads_addr lc (by omega) (by omega)).1, ?_, ?_, ?_⟩
    · intro i hi j hj i' hi' j' hj' e
      rw [(leads_addr lc (by omega) (by omega)).2, (leads_addr lc (by omega) (by omega)).2] at e
      exact hd i j i' j' (by omega) (by omega) (by omega) (by omega) e
    · intro i hi j hj i' hi' j' hj' e
      rw [(leads_addr lc (by omega) (by omega)).2, (leads_addr la hi' hj').2] at e
      exact hca i j i' j' (by omega) (by omega) hi' hj' e
    · intro i hi j hj i' hi' j' hj' e
      rw [(leads_addr lc (by omega) (by omega)).2, (leads_addr lb (by omega) hj').2] at e
      exact hcb i j i' j' (by omega) (by omega) (by omega) hj' e
  have val : ∀ (pl : Nat → Nat → Loc) (d : Nat × Nat),
      (∀ i j, i < d.1 → j < d.2 → (mem.get? (pl i j)).isSome) →
      ∀ i j, i < d.1 → j < d.2 → mem.get? (pl i j) = some ((mem.get? (pl i j)).getD alpha) := by
    intro pl d h i j hi hj
    obtain ⟨v, hv⟩ := Option.isSome_iff_exists.1 (h i j hi hj)
    rw [hv]; rfl
  obtain ⟨mem', e, h1, h2, h3, h4⟩ := gemm_ok (kern := kern) (alpha := alpha) (beta := beta)
    (mem := mem) hpre (A := fun i l => (mem.get? (pa i l)).getD alpha)
    (B := fun l j => (mem.get? (pb l j)).getD alpha) (C := fun i j => (mem.get? (pc i j)).getD alpha)
    (fun i l hi hl => by rw [(leads_addr la hi hl).2]; exact val pa x ha.exist i l hi hl)
    (fun l j hl hj => by
      rw [(leads_addr lb (by omega) hj).2]; exact val pb y hb.exist l j (by omega) hj)
    (fun i j hi hj => by
      rw [(leads_addr lc (by omega) (by omega)).2]
      exact val pc z hc.exist i j (by omega) (by omega))
  refine .inr ⟨mem', e, ⟨k1, k2, k3⟩, h1, h2, fun w hw => h4 w fun i j hi hj => ?_, ?_⟩
  · rw [(leads_addr lc (by omega) (by omega)).2]; exact hw i j (by omega) (by omega)
  · intro A B C hA hB hC i j hi hj
    have hv := h3 i j (by omega) (by omega)
    rw [(leads_addr lc hi hj).2] at hv
    rw [hv, hC i j hi hj]
    have hl : ((List.range x.2).map fun l => ((mem.get? (pa i l)).getD alpha,
        (mem.get? (pb l j)).getD alpha)) = (List.range x.2).map fun l => (A i l, B l j) := by
      refine List.map_congr_left fun l hl => ?_
      have hl := List.mem_range.1 hl
      rw [hA i l (by omega) hl, hB l j (by omega) (by omega)]
      rfl
    rw [hl, k2, k3]; rfl

/-- **C86**: blocks ask the container once, for the pointer. So a block over a container that changes
is what it is over a container that stays as it is at that moment, and C75 applies. -/
theorem C86_blocks [Target] (get_pointer : D → Act S Ptr) (cfg : Cfg) (m : AnyBase Layout D)
    (tl d : Nat × Nat) (s : S) :
    (Acts.blockWith get_pointer cfg m tl d s >>= fun r => .ok r.1) =
      AnyBase.blockWith (fun x => get_pointer x s >>= fun r => .ok r.1) cfg m tl d := by
  have run : ∀ {β γ : Type} (x : Out β) (f : β → Act S γ) (s : S),
      (act x >>= f) s = (x >>= fun b => f b s) := by
    intro β γ x f s
    rw [bind_run]
    cases x <;> rfl
  unfold Acts.blockWith AnyBase.blockWith
  simp only [run, Out.bind_assoc']
  refine congrArg _ (funext fun _ => congrArg _ (funext fun _ => congrArg _ (funext fun _ =>
    congrArg _ (funext fun k => ?_))))
  rw [bind_run, Out.bind_assoc']
  refine congrArg _ (funext fun r => ?_)
  simp only [run, Out.bind_assoc', Out.bind_ok]
  refine congrArg _ (funext fun p => congrArg _ (funext fun st => ?_))
  simp only [act, Out.bind_assoc', Out.bind_ok]
  cases BaseMatrix.strideLayout m.layout d st with
  | none => rfl
  | some l =>
    show (from_pointer_strided cfg p d l >>= fun a => Out.ok a) = from_pointer_strided cfg p d l
    cases from_pointer_strided cfg p d l <;> rfl

/-! ## Implementations that do not change -/

theorem still_layout (I : Impls α V D X) (m : AnyMat α V D X) :
    (I.still S).layout m = act (.ok (m.layout I)) := by
  induction m with
  | base b => rfl
  | user x => rfl
  | ref m ih => exact ih
  | addition a b l _ _ => rfl
  | scalarMult m s ih => exact ih

theorem still_get_unchecked [Add α] [Mul α] (I : Impls α V D X) (mem : Mem α) (r c : Nat)
    (m : AnyMat α V D X) : (I.still S).get_unchecked mem r c m = act (m.get_unchecked I mem r c) := by
  induction m with
  | base b =>
    simp only [Acts.get_unchecked, AnyMat.get_unchecked, AnyBase.get_unchecked, act_bind]; rfl
  | user x => rfl
  | ref m ih => exact ih
  | addition a b l iha ihb =>
    simp only [Acts.get_unchecked, AnyMat.get_unchecked, act_bind, iha, ihb]; rfl
  | scalarMult m s ih =>
    simp only [Acts.get_unchecked, AnyMat.get_unchecked, act_bind, ih]; rfl

theorem still_get1d_unchecked [Add α] [Mul α] (I : Impls α V D X) (mem : Mem α) (i : Nat)
    (m : AnyMat α V D X) : (I.still S).get1d_unchecked mem i m = act (m.get1d_unchecked I mem i) := by
  induction m with
  | base b =>
    simp only [Acts.get1d_unchecked, AnyMat.get1d_unchecked, AnyBase.get1d_unchecked, act_bind]; rfl
  | user x => rfl
  | ref m ih => exact ih
  | addition a b l iha ihb =>
    simp only [Acts.get1d_unchecked, AnyMat.get1d_unchecked, act_bind, iha, ihb]; rfl
  | scalarMult m s ih =>
    simp only [Acts.get1d_unchecked, AnyMat.get1d_unchecked, act_bind, ih]; rfl

/-- **C86**: for implementations that do not change, the code modelled here is the code of C74 and
C75: access, sums and evaluation. -/
theorem C86_agreement [Target] [Zero α] [Add α] [Mul α] (I : Impls α V D X) (cfg : Cfg) (mem : Mem α)
    (m m' : AnyMat α V D X) (r c i : Nat) :
    (I.still S).get m mem r c = act (m.get I mem r c) ∧
    (I.still S).get1d m mem i = act (m.get1d I mem i) ∧
    (I.still S).addition_new m m' = act (AnyMat.addition_new I m m') ∧
    (I.still S).eval (m.layout I) cfg m mem = act (m.eval I cfg mem) := by
  refine ⟨?_, ?_, ?_, ?_⟩
  · simp only [Acts.get, AnyMat.get, still_layout, still_get_unchecked, act_bind, act_ok, pure_bind]; rfl
  · simp only [Acts.get1d, AnyMat.get1d, still_layout, still_get1d_unchecked, act_bind, act_ok,
      pure_bind]; rfl
  · have e : ∀ l, (I.still S).lay.dim l = act (I.lay.dim l) := fun _ => rfl
    simp only [Acts.addition_new, AnyMat.addition_new, still_layout, act_ok, pure_bind, e]
    cases h1 : I.lay.dim (m.layout I) with
    | panic => rfl
    | ub => rfl
    | ok d1 =>
      cases h2 : I.lay.dim (m'.layout I) with
      | panic => rfl
      | ub => rfl
      | ok d2 =>
        simp only [act_ok, pure_bind, Out.bind_ok, assertOr_pure, act_bind]
        rfl
  · have e : ∀ l, (I.still S).lay.number_of_elements l = act (I.lay.number_of_elements l) :=
      fun _ => rfl
    have quiet : ∀ (l : V) (k : Nat) {β : Type} (f : Act S β),
        (act (I.lay.number_of_elements l) >>= fun n => assertOr (n ≤ k)
          (act (I.lay.number_of_elements l) >>= fun _ => pure ()) >>= fun _ => f) =
        act (I.lay.number_of_elements l) >>= fun n => act (Out.assert (n ≤ k)) >>= fun _ => f := by
      intro l k β f
      cases I.lay.number_of_elements l with
      | panic => rfl
      | ub => rfl
      | ok n => simp only [act_ok, pure_bind, assertOr_pure]
    simp only [Acts.eval, AnyMat.eval, still_layout, still_get1d_unchecked, act_bind, act_ok, pure_bind,
      ← forAct_act, e, quiet]
    rfl

/-- **C86**: the same for base matrices: construction, mutable access, `for_each`, slices and
products. -/
theorem C86_agreement_base [Target] {σ : Type} (I : Impls α V D X) (I₂ : Impls α V₂ D₂ X₂)
    (I₃ : Impls α V₃ D₃ X₃) (kern : Kern α) (alpha beta : α) (mem : Mem α) (m : AnyBase V D)
    (b : AnyBase V₂ D₂) (c : AnyBase V₃ D₃) (row col i : Nat) (f : σ → α → σ × α) (x : σ) (d : D)
    (l : V) (first last : Nat) :
    (I.still S).new d l = act (AnyBase.new I d l) ∧
    (I.still S).get_mut m row col = act (m.get_mut I row col) ∧
    (I.still S).get1d_mut m i = act (m.get1d_mut I i) ∧
    (I.still S).for_each m f x mem = act (m.for_each I f x mem) ∧
    (I.dat.still S).get_slice d first last = act (I.dat.get_slice d first last) ∧
    (I.dat.still S).get_slice_mut d first last = act (I.dat.get_slice_mut d first last) ∧
    (I.still S).matmul (I₂.still S) (I₃.still S) kern alpha m b beta c mem =
      act (AnyBase.matmul I I₂ I₃ kern alpha m b beta c mem) := by
  refine ⟨?_, ?_, ?_, ?_, ?_, ?_, ?_⟩
  · have e : (I.still S).lay.number_of_elements l = act (I.lay.number_of_elements l) := rfl
    have e' : (I.still S).dat.number_of_elements d = act (I.dat.number_of_elements d) := rfl
    simp only [Acts.new, AnyBase.new, e, e']
    cases I.lay.number_of_elements l with
    | panic => rfl
    | ub => rfl
    | ok n =>
      cases I.dat.number_of_elements d with
      | panic => rfl
      | ub => rfl
      | ok k =>
        simp only [act_ok, pure_bind, Out.bind_ok, assertOr_pure, act_bind]
        rfl
  · simp only [Acts.get_mut, Acts.get_unchecked_mut, AnyBase.get_mut, AnyBase.get_unchecked_mut, act_bind]
    rfl
  · simp only [Acts.get1d_mut, Acts.get1d_unchecked_mut, AnyBase.get1d_mut, AnyBase.get1d_unchecked_mut,
      act_bind]
    rfl
  · simp only [Acts.for_each, AnyBase.for_each, Acts.get1d_unchecked_mut, AnyBase.get1d_unchecked_mut,
      act_bind, ← forAct_act]
    rfl
  · funext s
    simp only [DataActs.get_slice, DataImpl.get_slice]
    by_cases h1 : first < last
    swap
    · simp only [Out.assert_neg h1]; rfl
    simp only [Out.assert_pos h1, Out.bind_ok, act_ok, pure_bind]
    have e : ∀ d, (I.dat.still S).number_of_elements d = act (I.dat.number_of_elements d) := fun _ => rfl
    simp only [e]
    cases I.dat.number_of_elements d with
    | panic => rfl
    | ub => rfl
    | ok n =>
      simp only [act_ok, pure_bind, Out.bind_ok, act_bind, assertOr_pure]
      rfl
  · funext s
    simp only [DataActs.get_slice_mut, DataImpl.get_slice_mut]
    by_cases h1 : first < last
    swap
    · simp only [Out.assert_neg h1]; rfl
    simp only [Out.assert_pos h1, Out.bind_ok, act_ok, pure_bind]
    have e : ∀ d, (I.dat.still S).number_of_elements d = act (I.dat.number_of_elements d) := fun _ => rfl
    simp only [e]
    cases I.dat.number_of_elements d with
    | panic => rfl
    | ub => rfl
    | ok n =>
      simp only [act_ok, pure_bind, Out.bind_ok, act_bind, assertOr_pure]
      rfl
  · simp only [Acts.matmul, AnyBase.matmul, act_bind]; rfl

/-! ## Which implementations keep the contract -/

/-- The answer, if there is one. -/
def answer (o : Out Nat) : Nat := match o with | .ok n => n | _ => 0

/-- **C86**: the contract is C74's for implementations that do not change, if `dim` does not panic and
layouts of a kind make the same new layouts: safe and logical layouts are steady, and addressing and
holding at every moment is addressing and holding. -/
theorem C86_still (I : LayoutImpl V) (kind : V → κ) (hS : SafeLayout I) (hL : Logical I kind)
    (shape : V → Nat × Nat) (hdim : ∀ l, I.dim l = .ok (shape l))
    (hnew : ∀ l l', kind l = kind l' → I.from_dimension l = I.from_dimension l') (Inv : S → Prop) :
    Steady (I.still S) Inv kind shape (fun l => answer (I.number_of_elements l)) ∧
    (∀ l n, Addresses I l n →
      AddressesAlways (I.still S) Inv (shape l) (answer (I.number_of_elements l)) l n) ∧
    ∀ (J : DataImpl α D) (d : D) (mem : Mem α) (n : Nat), Holds J d mem n →
      HoldsAlways (J.still S) Inv d mem n := by
  have num : ∀ l, Gives (I.number_of_elements l) (· = answer (I.number_of_elements l)) := by
    intro l
    cases h : I.number_of_elements l with
    | ok n => exact .inr ⟨n, rfl, rfl⟩
    | panic => exact .inl rfl
    | ub => exact absurd h (hS.number_of_elements l)
  have shp : ∀ {l l'}, I.dim l = I.dim l' → shape l = shape l' := by
    intro l l' h
    simpa [hdim] using h
  refine ⟨⟨fun l => always_act (.inr ⟨_, hdim l, rfl⟩), fun l => always_act (num l), ?_, ?_, ?_⟩, ?_, ?_⟩
  · intro l l' hk hs
    show answer _ = answer _
    rw [hL.number l l' hk (by rw [hdim, hdim, hs])]
  · intro l
    refine always_act ?_
    cases h : I.index_layout l with
    | ok l' => exact .inr ⟨l', rfl, (hL.index l l' h).1, shp (hL.index l l' h).2⟩
    | panic => exact .inl rfl
    | ub => exact absurd h (hS.index_layout l)
  · intro l l0 hk
    refine always_act ?_
    rw [hnew l l0 hk]
    cases h : I.from_dimension l0 (shape l0) with
    | ok l' =>
      obtain ⟨h1, h2⟩ := hL.new l0 _ l' (hdim l0) h
      refine .inr ⟨l', rfl, h1, by simpa [hdim] using h2, fun i hi => always_act ?_⟩
      cases hn : I.number_of_elements l' with
      | ok n => rw [hn] at hi; exact (hL.packed l0 _ l' n h hn).1 i hi
      | panic => rw [hn] at hi; simp [answer] at hi
      | ub => exact absurd hn (hS.number_of_elements l')
    | panic => exact .inl rfl
    | ub => exact absurd h (hS.from_dimension l0 _)
  · intro l n h
    refine ⟨fun r c hr hc => always_act ?_, fun i hi => always_act ?_⟩
    · obtain h' | ⟨d, h1, h2⟩ := h.positions
      · rw [hdim] at h'; cases h'
      · rw [hdim] at h1; cases h1; exact h2 r c hr hc
    · obtain h' | ⟨k, h1, h2⟩ := h.indices
      · rw [h'] at hi; simp [answer] at hi
      · rw [h1] at hi; exact h2 i hi
  · intro J d mem n h
    refine ⟨always_act ?_, fun mem' hx k hk => always_act ?_, fun k hk => always_act (h.place k hk),
      always_act h.pointer, always_act h.pointer_mut⟩
    · obtain h' | ⟨k, h1, h2⟩ := h.number
      · exact .inl h'
      · exact .inr ⟨k, h1, le_of_eq h2⟩
    · rw [h.stable mem' hx k hk]
      cases e : J.get_unchecked d mem k with
      | ok v => exact .inr ⟨v, rfl, trivial⟩
      | panic => exact .inl rfl
      | ub => exact absurd e (h.read k hk)

/-- **C86**: the crate's own layouts are steady, and its sound matrices keep the contract at every
moment, beside implementations of the program that change. -/
theorem C86_crate [Target] (cfg : Cfg) (Inv : S → Prop) :
    Steady ((crateLayouts cfg).still S) Inv Layout.indexKind Layout.dim
      (fun l => answer (l.number_of_elements cfg)) ∧
    ∀ (mem : Mem α) (b : BaseMatrix), Sound b mem →
      AddressesAlways ((crateLayouts cfg).still S) Inv b.layout.dim
        (answer (b.layout.number_of_elements cfg)) b.layout b.data.len ∧
      HoldsAlways ((crateContainers α).still S) Inv b.data mem b.data.len := by
  obtain ⟨hS, hL⟩ := C74_crate_layouts cfg
  obtain ⟨h1, h2, h3⟩ := C86_still (S := S) (α := α) (D := Container) (crateLayouts cfg)
    Layout.indexKind hS hL Layout.dim (fun _ => rfl)
    (fun l l' h => by funext d; simp only [crateLayouts, h]) Inv
  refine ⟨h1, fun mem b hb => ?_⟩
  obtain ⟨k1, k2⟩ := C74_crate_matrices cfg mem b hb
  exact ⟨h2 _ _ k1, h3 _ _ _ _ k2⟩

/-! ## A layout that changes and keeps the contract -/

/-- A column that counts the calls and, when the count is odd, is upside down. -/
def turning : LayoutActs Nat Nat where
  stride _ := fun s => .ok ((1, 1), s + 1)
  dim l := fun s => .ok ((l, 1), s + 1)
  number_of_elements l := fun s => .ok (l, s + 1)
  convert_1d_2d _ i := fun s => .ok ((i, 0), s + 1)
  convert_2d_1d _ r _ := fun s => .ok (r, s + 1)
  convert_1d_raw l i := fun s => .ok (if s % 2 = 0 then i else l - 1 - i, s + 1)
  convert_2d_raw l r _ := fun s => .ok (if s % 2 = 0 then r else l - 1 - r, s + 1)
  index_layout l := fun s => .ok (l, s + 1)
  from_dimension _ d := fun s => .ok (d.1, s + 1)

/-- The layout over the crate's containers. -/
def turningActs : Acts Nat Int Nat Container Empty :=
  ⟨turning, (crateContainers Int).still Nat, ⟨nofun, nofun, nofun⟩⟩

theorem turning_steady :
    Steady turning (fun _ => True) (fun _ => ()) (fun l => (l, 1)) (fun l => l) := by
  refine ⟨fun l s _ => .inr ⟨_, rfl, trivial, rfl⟩, fun l s _ => .inr ⟨_, rfl, trivial, rfl⟩,
    fun l l' _ h => (Prod.mk.inj h).1, fun l s _ => .inr ⟨_, rfl, trivial, rfl, rfl⟩,
    fun l l0 _ s _ => .inr ⟨_, rfl, trivial, rfl, rfl, fun i hi s _ => .inr ⟨_, rfl, trivial, ?_⟩⟩⟩
  show (if s % 2 = 0 then i else l0 - 1 - i) < l0
  change i < l0 at hi
  split <;> omega

theorem turning_addresses (l : Nat) : AddressesAlways turning (fun _ => True) (l, 1) l l l := by
  refine ⟨fun r c hr _ s _ => .inr ⟨_, rfl, trivial, ?_⟩, fun i hi s _ => .inr ⟨_, rfl, trivial, ?_⟩⟩
  · show (if s % 2 = 0 then r else l - 1 - r) < l
    change r < l at hr
    split <;> omega
  · show (if s % 2 = 0 then i else l - 1 - i) < l
    split <;> omega

theorem turning_grown : Grown turningActs (fun _ => True) (fun _ => ()) (fun l => (l, 1)) (fun l => l)
    threeMem (.scalarMult (.base ⟨⟨0, 0, 3⟩, 3⟩) 2) 3 :=
  .scaled (.base (turning_addresses 3) ((C86_crate dbg _).2 threeMem
    ⟨⟨0, 0, 3⟩, .rowVector ⟨3⟩, .dynamic, .dynamic⟩
    (sound_of_contiguous trivial ⟨by decide, by decide⟩ (by decide))).2) 2

/-- The same expression read twice gives different values, and evaluating it mixes them; all of this
is defined. -/
example : (turningActs.get (.base ⟨⟨0, 0, 3⟩, 3⟩) threeMem 0 0 0 = .ok (9, 2) ∧
      turningActs.get (.base ⟨⟨0, 0, 3⟩, 3⟩) threeMem 0 0 1 = .ok (7, 3) ∧
      turningActs.get (.base ⟨⟨0, 0, 3⟩, 3⟩) threeMem 3 0 0 = .panic) ∧
    Always (fun _ => True) (turningActs.get (.scalarMult (.base ⟨⟨0, 0, 3⟩, 3⟩) 2) threeMem 2 0)
      (fun _ => 2 < 3 ∧ 0 < 1) :=
  ⟨⟨rfl, rfl, rfl⟩, (C86_reads_partial turningActs _ _ _ _ turning_steady _ _ _ turning_grown 2 0 0).1⟩

example : turningActs.eval 0 dbg (.scalarMult (.base ⟨⟨0, 0, 3⟩, 3⟩) 2) threeMem 0 =
      .ok ((⟨⟨1, 0, 3⟩, 3⟩, ⟨[[7, 8, 9], [18, 16, 14]]⟩), 12) ∧
    Always (fun _ => True) (turningActs.for_each ⟨⟨0, 0, 3⟩, 3⟩ (fun s v => (s + v, v * 10)) (0 : Int)
      threeMem) (fun y => ∀ q, y.2.size q = threeMem.size q) :=
  ⟨rfl, (C86_writes_partial turningActs _ _ _ _ turning_steady threeMem ⟨⟨0, 0, 3⟩, 3⟩ 3
    (turning_addresses 3) ((C86_crate dbg _).2 threeMem ⟨⟨0, 0, 3⟩, .rowVector ⟨3⟩, .dynamic, .dynamic⟩
    (sound_of_contiguous trivial ⟨by decide, by decide⟩ (by decide))).2).2.2.1 _ _⟩

/-- Memory for a product of columns. -/
def turningMem : Mem Int := ⟨[[7, 8, 9], [2], [1, 1, 1]]⟩

/-- Columns that turn expose their elements from the top, as their strides say. -/
theorem turning_exposes (q l : Nat) (g : Container → Act Nat Ptr)
    (hg : ∀ d s, g d s = .ok (⟨d, 0⟩, s)) (hq : ∀ i, i < l → (turningMem.get? ⟨q, i⟩).isSome) :
    ExposesAlways turningActs (fun _ => True) g ⟨⟨q, 0, l⟩, l⟩ turningMem (l, 1) (1, 1)
      (fun i _ => ⟨q, i⟩) := by
  refine ⟨fun s _ => .inr ⟨_, rfl, trivial, rfl⟩, fun s _ => .inr ⟨_, rfl, trivial, rfl⟩,
    fun s _ => .inr ⟨_, hg _ _, trivial, fun i j hi hj => ⟨i, ?_, hi, by simp⟩⟩, fun i j hi _ => hq i hi⟩
  obtain rfl : j = 0 := by simpa using hj
  show (i : Int) = (0 : Nat) + i * asIsize 1 + (0 : Nat) * asIsize 1
  rw [show asIsize 1 = 1 by decide]
  simp

/-- The hypotheses of `C86_product_partial`, and the product. -/
example : ExposesAlways turningActs (fun _ => True) turningActs.dat.get_pointer ⟨⟨0, 0, 3⟩, 3⟩
      turningMem (3, 1) (1, 1) (fun i _ => ⟨0, i⟩) ∧
    ExposesAlways turningActs (fun _ => True) turningActs.dat.get_pointer ⟨⟨1, 0, 1⟩, 1⟩
      turningMem (1, 1) (1, 1) (fun i _ => ⟨1, i⟩) ∧
    ExposesAlways turningActs (fun _ => True) turningActs.dat.get_pointer_mut ⟨⟨2, 0, 3⟩, 3⟩
      turningMem (3, 1) (1, 1) (fun i _ => ⟨2, i⟩) ∧
    turningActs.matmul turningActs turningActs exactKern 1 ⟨⟨0, 0, 3⟩, 3⟩ ⟨⟨1, 0, 1⟩, 1⟩ 1
      ⟨⟨2, 0, 3⟩, 3⟩ turningMem 0 = .ok (⟨[[7, 8, 9], [2], [15, 17, 19]]⟩, 9) :=
  ⟨turning_exposes 0 3 _ (fun _ _ => rfl) (by decide), turning_exposes 1 1 _ (fun _ _ => rfl) (by decide),
    turning_exposes 2 3 _ (fun _ _ => rfl) (by decide), by rfl⟩

end Householder.Props
