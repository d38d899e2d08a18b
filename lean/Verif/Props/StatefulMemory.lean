import Verif.Spec.StatefulMemory
import Verif.Props.StatefulAny
import Verif.Props.StatefulDot

/-!
# Implementations of the open traits that share the memory (C75, C86)
-/

namespace Householder.Props

open Spec

variable {S α σ V D X V₁ D₁ X₁ V₂ D₂ X₂ V₃ D₃ X₃ : Type}

theorem hasPlace_iff {mem : Mem α} {p : Loc} : HasPlace mem p ↔ ∃ v, mem.get? p = some v :=
  Mem.get?_isSome_iff.symm

/-- In a loop that returns, all rounds have returned. -/
theorem forRange_rounds {τ : Type} {body : Nat → τ → Out τ} {P : τ → Prop}
    (hP : ∀ i s t, P s → body i s = .ok t → P t) {n : Nat} {s t : τ} (hs : P s)
    (h : forRange n body s = .ok t) : P t ∧ ∀ i < n, ∃ u v, P u ∧ body i u = .ok v := by
  induction n generalizing t with
  | zero => cases h; exact ⟨hs, fun i hi => absurd hi (by omega)⟩
  | succ n ih =>
    rw [forRange_succ, Out.bind_eq_ok] at h
    obtain ⟨u, h1, h2⟩ := h
    obtain ⟨hu, hr⟩ := ih h1
    refine ⟨hP n u t hu h2, fun i hi => ?_⟩
    rcases Nat.lt_succ_iff_lt_or_eq.1 hi with h | rfl
    · exact hr i h
    · exact ⟨u, t, hu, h2⟩

theorem mapM_each {β γ : Type} {f : β → Out γ} {xs : List β} {ys : List γ} (h : xs.mapM f = .ok ys) :
    ∀ x ∈ xs, ∃ y, f x = .ok y := by
  induction xs generalizing ys with
  | nil => simp
  | cons x xs ih =>
    rw [List.mapM_cons, Out.bind_eq_ok] at h
    obtain ⟨y, h1, h2⟩ := h
    rw [Out.bind_eq_ok] at h2
    obtain ⟨ys, h2, -⟩ := h2
    intro z hz
    rcases List.mem_cons.1 hz with rfl | hz
    · exact ⟨y, h1⟩
    · exact ih h2 z hz

/-- The kernel, wherever its pointers lead: it returns exactly if its preconditions hold and what it
needs exists. -/
theorem gemm_undefined {kern : Kern α} {m k n : Nat} {alpha beta : α} {a b c : Ptr}
    {rsa csa rsb csb rsc csc : Int} {mem : Mem α} :
    gemm kern m k n alpha a rsa csa b rsb csb beta c rsc csc mem = .ub ↔
      ¬ (gemmPre m k n a rsa csa b rsb csb c rsc csc ∧ ∀ i < m, ∀ j < n,
        HasPlace mem (gemmLoc c rsc csc i j) ∧ ∀ l < k, HasPlace mem (gemmLoc a rsa csa i l) ∧
          HasPlace mem (gemmLoc b rsb csb l j)) := by
  have hnp := gemm_ne_panic kern m k n alpha beta a b c rsa csa rsb csb rsc csc mem
  constructor
  · rintro h ⟨hp, hall⟩
    by_cases hmn : 0 < m ∧ 0 < n
    · have val : ∀ {p : Loc}, HasPlace mem p → mem.get? p = some ((mem.get? p).getD alpha) := by
        intro p hin
        obtain ⟨v, hv⟩ := hasPlace_iff.1 hin
        simp [hv]
      obtain ⟨mem', e, -⟩ := gemm_ok (kern := kern) (alpha := alpha) (beta := beta) (mem := mem) hp
        (A := fun i j => (mem.get? (gemmLoc a rsa csa i j)).getD alpha)
        (B := fun i j => (mem.get? (gemmLoc b rsb csb i j)).getD alpha)
        (C := fun i j => (mem.get? (gemmLoc c rsc csc i j)).getD alpha)
        (fun i l hi hl => val ((hall i hi 0 hmn.2).2 l hl).1)
        (fun l j hl hj => val ((hall 0 hmn.1 j hj).2 l hl).2)
        (fun i j hi hj => val (hall i hi j hj).1)
      rw [h] at e
      cases e
    · unfold gemm at h
      rw [if_pos hp] at h
      rcases Nat.eq_zero_or_pos m with rfl | hm
      · cases h
      · obtain rfl : n = 0 := by omega
        have : ∀ r : Nat, forRange r (fun _ mem => (.ok mem : Out (Mem α))) mem = .ok mem := by
          intro r
          induction r with
          | zero => rfl
          | succ r ih => rw [forRange_succ, ih]; rfl
        exact absurd (h.symm.trans (this m)) (by simp)
  · intro h
    cases e : gemm kern m k n alpha a rsa csa b rsb csb beta c rsc csc mem with
    | ub => rfl
    | panic => exact absurd e hnp
    | ok mem' =>
      refine absurd ?_ h
      unfold gemm at e
      by_cases hp : gemmPre m k n a rsa csa b rsb csb c rsc csc
      swap
      · rw [if_neg hp] at e; cases e
      rw [if_pos hp] at e
      refine ⟨hp, ?_⟩
      let P : Mem α → Prop := fun mem1 => ∀ q, mem1.size q = mem.size q
      have has : ∀ {mem1 : Mem α} {p : Loc} {v : α}, P mem1 → mem1.read p = .ok v → HasPlace mem p := by
        intro mem1 p v h1 h2
        have := Mem.get?_isSome_iff.1 ⟨v, Mem.read_ok_iff.1 h2⟩
        rw [h1] at this
        exact this
      have step : ∀ i j (mem1 mem2 : Mem α), P mem1 → (do
          let ps ← (List.range k).mapM (fun l => do
            let x ← mem1.read (gemmLoc a rsa csa i l)
            let y ← mem1.read (gemmLoc b rsb csb l j)
            return (x, y))
          let old ← mem1.read (gemmLoc c rsc csc i j)
          mem1.write (gemmLoc c rsc csc i j) (kern ⟨m, n, i, j⟩ alpha ps beta old)) = .ok mem2 →
          P mem2 ∧ HasPlace mem (gemmLoc c rsc csc i j) ∧ ∀ l < k,
            HasPlace mem (gemmLoc a rsa csa i l) ∧ HasPlace mem (gemmLoc b rsb csb l j) := by
        intro i j mem1 mem2 h1 h2
        rw [Out.bind_eq_ok] at h2
        obtain ⟨ps, h3, h2⟩ := h2
        rw [Out.bind_eq_ok] at h2
        obtain ⟨old, h4, h5⟩ := h2
        refine ⟨?_, has h1 h4, fun l hl => ?_⟩
        · obtain ⟨mem3, h6, hu⟩ := Mem.write_upd (mem := mem1) (p := gemmLoc c rsc csc i j)
            (v := kern ⟨m, n, i, j⟩ alpha ps beta old)
            (Mem.get?_isSome_iff.1 ⟨old, Mem.read_ok_iff.1 h4⟩)
          rw [h5] at h6
          cases h6
          intro q
          rw [hu.size, h1]
        · obtain ⟨y, hy⟩ := mapM_each h3 l (List.mem_range.2 hl)
          rw [Out.bind_eq_ok] at hy
          obtain ⟨x, hx, hy⟩ := hy
          rw [Out.bind_eq_ok] at hy
          obtain ⟨z, hz, -⟩ := hy
          exact ⟨has h1 hx, has h1 hz⟩
      obtain ⟨-, hr⟩ := forRange_rounds (P := P)
        (fun i s t hs h => (forRange_rounds (P := P) (fun j s t hs h => (step i j s t hs h).1) hs h).1)
        (fun q => rfl) e
      intro i hi j hj
      obtain ⟨u, v, hu, hb⟩ := hr i hi
      obtain ⟨-, hr'⟩ := forRange_rounds (P := P) (fun j s t hs h => (step i j s t hs h).1) hu hb
      obtain ⟨u', v', hu', hb'⟩ := hr' j hj
      exact (step i j u' v' hu' hb').2

theorem kernelReaches_iff [Target] {da db dc : Nat × Nat} (mem : Mem α) (sa sb sc : Nat × Nat)
    (pa pb pc : Ptr) (h : da.2 = db.1 ∧ dc.1 = da.1 ∧ dc.2 = db.2) :
    KernelReaches mem da db dc sa sb sc pa pb pc ↔
      gemmPre da.1 da.2 db.2 pa (asIsize sa.1) (asIsize sa.2) pb (asIsize sb.1) (asIsize sb.2)
        pc (asIsize sc.1) (asIsize sc.2) ∧ ∀ i < da.1, ∀ j < db.2,
        HasPlace mem (gemmLoc pc (asIsize sc.1) (asIsize sc.2) i j) ∧ ∀ l < da.2,
          HasPlace mem (gemmLoc pa (asIsize sa.1) (asIsize sa.2) i l) ∧
          HasPlace mem (gemmLoc pb (asIsize sb.1) (asIsize sb.2) l j) := by
  obtain ⟨k1, k2, k3⟩ := h
  constructor
  · rintro ⟨A, B, C, la, lb, lc, hd, hca, hcb, hall⟩
    refine ⟨(kernelFits_iff sa sb sc pa pb pc ⟨k1, k2, k3⟩).1 ⟨A, B, C, la, lb, lc, hd, hca, hcb⟩, ?_⟩
    intro i hi j hj
    have h := hall i j (by omega) (by omega)
    rw [(leads_addr lc (by omega) (by omega)).2]
    refine ⟨h.1, fun l hl => ?_⟩
    rw [(leads_addr la hi hl).2, (leads_addr lb (by omega) hj).2]
    exact h.2 l hl
  · rintro ⟨hp, hall⟩
    obtain ⟨va, vb, vc, h1, h2, h3⟩ := hp
    refine ⟨_, _, _, leads_self va, leads_self (by rw [← k1]; exact vb),
      leads_self (by rw [k2, k3]; exact vc), ?_, ?_, ?_, ?_⟩
    · intro i j i' j' hi hj hi' hj' e
      exact h1 i (by omega) j (by omega) i' (by omega) j' (by omega) e
    · intro i j i' j' hi hj hi' hj' e
      exact h2 i (by omega) j (by omega) i' (by omega) j' (by omega) e
    · intro i j i' j' hi hj hi' hj' e
      exact h3 i (by omega) j (by omega) i' (by omega) j' (by omega) e
    · intro i j hi hj
      exact hall i (by omega) j (by omega)

/-- **C86, exactly**: products over any implementations whatever that change, wherever their pointers
lead: as `C86_exact_product`, where what the product needs has to exist. The same if they share the
memory; then it is the memory that all the calls have left. -/
theorem C86_exact_kernel [Target] (A₁ : Acts S α V₁ D₁ X₁) (A₂ : Acts S α V₂ D₂ X₂)
    (A₃ : Acts S α V₃ D₃ X₃) (B₁ : Acts (S × Mem α) α V₁ D₁ X₁) (B₂ : Acts (S × Mem α) α V₂ D₂ X₂)
    (B₃ : Acts (S × Mem α) α V₃ D₃ X₃) (kern : Kern α) (alpha beta : α) (a : AnyBase V₁ D₁)
    (b : AnyBase V₂ D₂) (c : AnyBase V₃ D₃) (mem : Mem α) (s : S) (w : S × Mem α) :
    (A₁.matmul A₂ A₃ kern alpha a b beta c mem s = .ub ↔
      ProductUndefined (fun _ => mem) (A₁.lay.dim a.layout) (A₂.lay.dim b.layout)
        (A₃.lay.dim c.layout) (A₁.lay.stride a.layout) (A₂.lay.stride b.layout)
        (A₃.lay.stride c.layout) (A₁.dat.get_pointer a.data) (A₂.dat.get_pointer b.data)
        (A₃.dat.get_pointer_mut c.data) s) ∧
    (B₁.matmul_here B₂ B₃ kern alpha a b beta c w = .ub ↔
      ProductUndefined Prod.snd (B₁.lay.dim a.layout) (B₂.lay.dim b.layout)
        (B₃.lay.dim c.layout) (B₁.lay.stride a.layout) (B₂.lay.stride b.layout)
        (B₃.lay.stride c.layout) (B₁.dat.get_pointer a.data) (B₂.dat.get_pointer b.data)
        (B₃.dat.get_pointer_mut c.data) w) := by
  constructor
  · unfold Acts.matmul ProductUndefined
    refine ask3 fun x y z s1 => (check_run _ s1).trans (and_congr_right fun hd => ?_)
    refine ask6 fun u u' v v' w w' s2 => ?_
    refine ask3 fun p q r t => ?_
    rw [act_run, Out.bind_eq_ub]
    simp only [reduceCtorEq, and_false, exists_false, or_false]
    rw [gemm_undefined, ← kernelReaches_iff mem (u.1, u'.2) (v.1, v'.2) (w.1, w'.2) p q r hd]
  · unfold Acts.matmul_here ProductUndefined
    refine ask3 fun x y z s1 => (check_run _ s1).trans (and_congr_right fun hd => ?_)
    refine ask6 fun u u' v v' w w' s2 => ?_
    refine ask3 fun p q r t => ?_
    rw [Out.bind_eq_ub]
    simp only [reduceCtorEq, and_false, exists_false, or_false]
    rw [gemm_undefined, ← kernelReaches_iff t.2 (u.1, u'.2) (v.1, v'.2) (w.1, w'.2) p q r hd]

theorem exists_pair {β γ : Type} (P : β × γ → Prop) : (∃ x, P x) ↔ ∃ a b, P (a, b) := Prod.exists

/-- One round of `for_each`. -/
theorem useHere_run (A : Acts (S × Mem α) α V D X) (b : AnyBase V D)
    (f : σ → α → Act (S × Mem α) (σ × α)) (i : Nat) (y : σ) (u : S × Mem α) :
    (useHere (askPlace1d A b i) f (u, y) = .ub ↔ (do
      let p ← A.get1d_unchecked_mut b i
      let v ← readHere p
      let r ← f y v
      writeHere p r.2
      return r.1) u = .ub) ∧
    ∀ z t, useHere (askPlace1d A b i) f (u, y) = .ok ((), t, z) ↔ (do
      let p ← A.get1d_unchecked_mut b i
      let v ← readHere p
      let r ← f y v
      writeHere p r.2
      return r.1) u = .ok (z, t) := by
  rw [bind_run, useHere, askPlace1d_run]
  cases A.get1d_unchecked_mut b i u with
  | panic => simp
  | ub => simp
  | ok p =>
    obtain ⟨p, w⟩ := p
    simp only [Out.bind_ok, bind_run, readHere, Mem.read]
    cases w.2.get? p with
    | none => simp
    | some v =>
      simp only [Out.bind_ok]
      cases f y v w with
      | panic => simp
      | ub => simp
      | ok r =>
        obtain ⟨⟨x', v'⟩, s', mem'⟩ := r
        simp only [Out.bind_ok, writeHere]
        by_cases hq : HasPlace mem' p
        · obtain ⟨v2, hv2⟩ := hasPlace_iff.1 hq
          simp only [hq, if_true, Mem.write, hv2, Out.bind_ok, pure_run]
          simp [and_comm]
        · have hg : mem'.get? p = none := Mem.get?_eq_none (Nat.le_of_not_lt hq)
          simp [hq, Mem.write, hg]

/-- **C86, exactly**: `for_each` and evaluation over any implementations whatever that share the
memory, with a callable that may do anything, too. `for_each` is undefined exactly if the first call
that does not return is, or a place that it was given does not exist when it is read or when, after
the callable, it is written. -/
theorem C86_exact_here [Target] [Zero α] [Add α] [Mul α] (A : Acts (S × Mem α) α V D X) (kind : V)
    (cfg : Cfg) (m : AnyMat α V D X) (b : AnyBase V D) (f : σ → α → Act (S × Mem α) (σ × α)) (x : σ)
    (r c i : Nat) (w : S × Mem α) :
    (A.get_here m r c w = .ub ↔ askDim A m w = .ub ∨ ∃ d w', askDim A m w = .ok (d, w') ∧
      r < d.1 ∧ c < d.2 ∧ FaultyRun ((sources m).map (call2d A ⟨[]⟩ r c)) w') ∧
    (A.get1d_here m i w = .ub ↔ askNumber A m w = .ub ∨ ∃ n w', askNumber A m w = .ok (n, w') ∧
      i < n ∧ FaultyRun ((sources m).map (call1d A ⟨[]⟩ i)) w') ∧
    (A.for_each_here b f x w = .ub ↔ A.lay.number_of_elements b.layout w = .ub ∨
      ∃ n w', A.lay.number_of_elements b.layout w = .ok (n, w') ∧
        FaultyRun ((List.range n).map fun i => useHere (askPlace1d A b i) f) (w', x)) ∧
    (A.eval_here kind cfg m w = .ub ↔ EvalFaultyHere A kind cfg m w) := by
  refine ⟨?_, ?_, ?_, ?_⟩
  · unfold Acts.get_here
    rw [(C86_exact_reads A ⟨[]⟩ m r c i w).1, askDim_run, bind_run, Out.bind_eq_ub, or_assoc]
    refine or_congr_right ?_
    simp only [Out.bind_eq_ok]
    constructor
    · rintro ⟨l, w1, h1, h2 | ⟨d, w2, h2, h3⟩⟩
      · exact .inl ⟨(l, w1), h1, h2⟩
      · exact .inr ⟨d, w2, ⟨(l, w1), h1, h2⟩, h3⟩
    · rintro (⟨⟨l, w1⟩, h1, h2⟩ | ⟨d, w2, ⟨⟨l, w1⟩, h1, h2⟩, h3⟩)
      · exact ⟨l, w1, h1, .inl h2⟩
      · exact ⟨l, w1, h1, .inr ⟨d, w2, h2, h3⟩⟩
  · unfold Acts.get1d_here
    rw [(C86_exact_reads A ⟨[]⟩ m r c i w).2, askNumber_run, bind_run, Out.bind_eq_ub, or_assoc]
    refine or_congr_right ?_
    simp only [Out.bind_eq_ok]
    constructor
    · rintro ⟨l, w1, h1, h2 | ⟨d, w2, h2, h3⟩⟩
      · exact .inl ⟨(l, w1), h1, h2⟩
      · exact .inr ⟨d, w2, ⟨(l, w1), h1, h2⟩, h3⟩
    · rintro (⟨⟨l, w1⟩, h1, h2⟩ | ⟨d, w2, ⟨⟨l, w1⟩, h1, h2⟩, h3⟩)
      · exact ⟨l, w1, h1, .inl h2⟩
      · exact ⟨l, w1, h1, .inr ⟨d, w2, h2, h3⟩⟩
  · unfold Acts.for_each_here
    rw [bind_run, Out.bind_eq_ub]
    refine or_congr_right ?_
    constructor
    · rintro ⟨⟨n, t⟩, h1, h2⟩
      exact ⟨n, t, h1, (run_for (fun i y u => useHere_run A b f i y u) x n t).1.1 h2⟩
    · rintro ⟨n, t, h1, h2⟩
      exact ⟨(n, t), h1, (run_for (fun i y u => useHere_run A b f i y u) x n t).1.2 h2⟩
  · have split : A.eval_here kind cfg m = askDim A m >>= fun dim => askNew A kind dim >>= fun ln =>
        newVectorHere cfg ln.2 >>= fun data => askNew A kind dim >>= fun ln' =>
        assertOr (ln'.2 ≤ data.number_of_elements)
          (A.lay.number_of_elements ln'.1 >>= fun _ => pure ()) >>= fun _ =>
        askNumber A m >>= fun k => forAct k (fun index _ => do
          let v ← A.get1d_unchecked ⟨[]⟩ index m
          let j ← A.lay.convert_1d_raw ln'.1 index
          let p ← act (data.get_unchecked_mut j)
          writeHere p v) () >>= fun _ => pure ⟨data, ln'.1⟩ := by
      simp only [Acts.eval_here, askDim_run, askNew_run, askNumber_run, bind_assoc, pure_bind]
    rw [split]
    unfold EvalFaultyHere
    rw [bind_run, Out.bind_eq_ub]
    refine or_congr_right ((exists_pair _).trans ?_)
    refine exists_congr fun d => exists_congr fun w1 => and_congr_right fun _ => ?_
    rw [bind_run, Out.bind_eq_ub]
    refine or_congr_right (((exists_pair _).trans (exists_pair _)).trans ?_)
    refine exists_congr fun l => exists_congr fun n => (exists_pair _).trans ?_
    refine exists_congr fun s2 => exists_congr fun mem => and_congr_right fun _ => ?_
    dsimp only
    rw [bind_run]
    by_cases hroom : n * cfg.item.size ≤ isizeMax
    swap
    · simp [newVectorHere, Container.newVector, hroom]
    have hnew : (newVectorHere cfg n : Act (S × Mem α) Container) (s2, mem) =
        .ok (⟨mem.bufs.length, 0, n⟩, s2, ⟨mem.bufs ++ [List.replicate n 0]⟩) := by
      simp [newVectorHere, Container.newVector, hroom, Mem.alloc]
    rw [hnew, Out.bind_ok]
    simp only [hroom, true_and]
    rw [bind_run, Out.bind_eq_ub]
    refine or_congr_right (((exists_pair _).trans (exists_pair _)).trans ?_)
    refine exists_congr fun l' => exists_congr fun n' => exists_congr fun w3 => and_congr_right fun _ => ?_
    dsimp only
    by_cases hle : n' ≤ n
    swap
    · rw [assertOr_neg (show ¬ n' ≤ (⟨mem.bufs.length, 0, n⟩ : Container).number_of_elements from hle),
        if_neg hle, bind_assoc, bind_assoc, bind_run, Out.bind_eq_ub]
      exact or_iff_left (by rintro ⟨x, -, h⟩; cases h)
    rw [assertOr_pos (show n' ≤ (⟨mem.bufs.length, 0, n⟩ : Container).number_of_elements from hle),
      if_pos hle, pure_bind, bind_run, Out.bind_eq_ub]
    refine or_congr_right ((exists_pair _).trans ?_)
    refine exists_congr fun k => exists_congr fun w4 => and_congr_right fun _ => ?_
    dsimp only
    rw [bind_run, Out.bind_eq_ub]
    refine (or_iff_left (by rintro ⟨x, -, h⟩; cases h)).trans ?_
    refine (needsRun_for (P := fun _ => True) (x := copiedHere A m l' mem.bufs.length n) ?_
      (fun _ _ _ _ _ _ _ => trivial) trivial k w4).1.ub
    rintro i ⟨⟩ t -
    suffices h : (do
        let v ← A.get1d_unchecked ⟨[]⟩ i m
        let j ← A.lay.convert_1d_raw l' i
        let p ← act ((⟨mem.bufs.length, 0, n⟩ : Container).get_unchecked_mut j)
        writeHere p v : Act (S × Mem α) Unit) t = copiedHere A m l' mem.bufs.length n i t by
      rw [h]; exact NeedsRun.one _ t
    rw [bind_run, copiedHere]
    cases A.get1d_unchecked ⟨[]⟩ i m t with
    | panic => rfl
    | ub => rfl
    | ok v =>
      obtain ⟨v, w5⟩ := v
      simp only [Out.bind_ok, bind_run]
      cases A.lay.convert_1d_raw l' i w5 with
      | panic => rfl
      | ub => rfl
      | ok k =>
        obtain ⟨k, s6, mem6⟩ := k
        simp only [Out.bind_ok, Container.get_unchecked_mut]
        by_cases hk : k < n
        swap
        · simp [hk, act]
        simp only [hk, if_true, true_and, act_run, Out.bind_ok, Nat.zero_add]
        by_cases hq : HasPlace mem6 ⟨mem.bufs.length, k⟩
        · obtain ⟨u, hu⟩ := hasPlace_iff.1 hq
          simp [hq, writeHere, Mem.write, hu]
        · have hg : mem6.get? ⟨mem.bufs.length, k⟩ = none :=
            Mem.get?_eq_none (Nat.le_of_not_lt hq)
          simp [hq, writeHere, Mem.write, hg]

/-- **C86, exactly**: `dot` over any implementations whatever that change or share the memory, wherever
their pointers lead. The result is made in the memory that the first calls have left; the product is
made in the one that all calls have left. -/
theorem C86_exact_dot_here [Target] [Zero α] [One α] (A₁ : Acts S α V₁ D₁ X₁) (A₂ : Acts S α V₂ D₂ X₂)
    (B₁ : Acts (S × Mem α) α V₁ D₁ X₁) (B₂ : Acts (S × Mem α) α V₂ D₂ X₂) (cfg : Cfg) (kern : Kern α)
    (i : DotImpl) (a : AnyBase V₁ D₁) (b : AnyBase V₂ D₂) (mem : Mem α) (s : S) (w : S × Mem α) :
    (A₁.dot A₂ cfg kern i a b mem s = .ub ↔
      FaultyRun [A₁.lay.dim a.layout, A₂.lay.dim b.layout] s ∨
      ∃ x y t, Says [A₁.lay.dim a.layout, A₂.lay.dim b.layout] s [x, y] t ∧
        ∃ R, dotMade cfg i x y mem.bufs.length = some R ∧
          ProductUndefined (fun _ => (⟨mem.bufs ++ [List.replicate R.data.len 0]⟩ : Mem α))
            (A₁.lay.dim a.layout) (A₂.lay.dim b.layout) (act (.ok R.layout.dim))
            (A₁.lay.stride a.layout) (A₂.lay.stride b.layout) (act (.ok (claimed R.layout)))
            (A₁.dat.get_pointer a.data) (A₂.dat.get_pointer b.data) (act (.ok ⟨R.data, 0⟩)) t) ∧
    (B₁.dot_here B₂ cfg kern i a b w = .ub ↔
      FaultyRun [B₁.lay.dim a.layout, B₂.lay.dim b.layout] w ∨
      ∃ x y t, Says [B₁.lay.dim a.layout, B₂.lay.dim b.layout] w [x, y] t ∧
        ∃ R, dotMade cfg i x y t.2.bufs.length = some R ∧
          ProductUndefined Prod.snd
            (B₁.lay.dim a.layout) (B₂.lay.dim b.layout) (act (.ok R.layout.dim))
            (B₁.lay.stride a.layout) (B₂.lay.stride b.layout) (act (.ok (claimed R.layout)))
            (B₁.dat.get_pointer a.data) (B₂.dat.get_pointer b.data) (act (.ok ⟨R.data, 0⟩))
            (t.1, ⟨t.2.bufs ++ [List.replicate R.data.len 0]⟩)) := by
  constructor
  · unfold Acts.dot
    refine ask2 fun x y t => ?_
    have run : ∀ {β γ : Type} (o : Out β) (f : β → Act S γ) (t : S),
        (act o >>= f) t = (o >>= fun b => f b t) := by
      intro β γ o f t
      rw [bind_run]
      cases o <;> rfl
    rw [run]
    refine (iff_of_eq (congrArg (fun o : Out (BaseMatrix × Mem α) => (o >>= fun x =>
      (A₁.matmul A₂ ((crateImpls cfg α).still S) kern 1 a b 0 ⟨x.1.data, x.1.layout⟩ x.2 >>= fun mem2 =>
        (pure (x.1, mem2) : Act S _)) t) = .ub) (dot_made cfg i x y mem))).trans ?_
    cases hR : dotMade cfg i x y mem.bufs.length with
    | none => simp
    | some R =>
      obtain ⟨h1, h2⟩ := dotMade_some hR
      have hm := (C86_exact_kernel A₁ A₂ ((crateImpls cfg α).still S) B₁ B₂
        ((crateImpls cfg α).still (S × Mem α)) kern 1 0 a b ⟨R.data, R.layout⟩
        ⟨mem.bufs ++ [List.replicate R.data.len 0]⟩ t w).1
      rw [Out.bind_ok, bind_run, Out.bind_eq_ub]
      simp only [pure_run, reduceCtorEq, and_false, exists_false, or_false, Option.some.injEq,
        exists_eq_left']
      rw [hm]
      simp only [crateImpls, crateLayouts, crateContainers, Container.get_pointer, h2, Impls.still,
        LayoutImpl.still, DataImpl.still]
  · unfold Acts.dot_here
    refine ask2 fun x y t => ?_
    rw [bind_run]
    refine (iff_of_eq (congrArg (fun o : Out (BaseMatrix × Mem α) => ((o >>= fun x =>
      .ok (x.1, t.1, x.2)) >>= fun x : BaseMatrix × S × Mem α =>
      (B₁.matmul_here B₂ ((crateImpls cfg α).still (S × Mem α)) kern 1 a b 0 ⟨x.1.data, x.1.layout⟩
        >>= fun _ => (pure x.1 : Act (S × Mem α) BaseMatrix)) x.2) = .ub)
      (dot_made cfg i x y t.2))).trans ?_
    cases hR : dotMade cfg i x y t.2.bufs.length with
    | none => simp
    | some R =>
      obtain ⟨h1, h2⟩ := dotMade_some hR
      have hm := (C86_exact_kernel A₁ A₂ ((crateImpls cfg α).still S) B₁ B₂
        ((crateImpls cfg α).still (S × Mem α)) kern 1 0 a b ⟨R.data, R.layout⟩ mem s
        (t.1, ⟨t.2.bufs ++ [List.replicate R.data.len 0]⟩)).2
      rw [Out.bind_ok, Out.bind_ok, bind_run, Out.bind_eq_ub]
      simp only [pure_run, reduceCtorEq, and_false, exists_false, or_false, Option.some.injEq,
        exists_eq_left']
      rw [hm]
      simp only [crateImpls, crateLayouts, crateContainers, Container.get_pointer, h2, Impls.still,
        LayoutImpl.still, DataImpl.still]

/-- **C75, exactly**: products over implementations that do not change, wherever their pointers
lead. -/
theorem C75_exact_any [Target] [Zero α] [One α] (I₁ : Impls α V₁ D₁ X₁) (I₂ : Impls α V₂ D₂ X₂)
    (I₃ : Impls α V₃ D₃ X₃) (cfg : Cfg) (kern : Kern α) (i : DotImpl) (alpha beta : α)
    (a : AnyBase V₁ D₁) (b : AnyBase V₂ D₂) (c : AnyBase V₃ D₃) (mem : Mem α) :
    let pa : Act Unit Ptr := act (I₁.dat.get_pointer a.data)
    let pb : Act Unit Ptr := act (I₂.dat.get_pointer b.data)
    (AnyBase.matmul I₁ I₂ I₃ kern alpha a b beta c mem = .ub ↔
      ProductUndefined (fun _ => mem) (act (I₁.lay.dim a.layout)) (act (I₂.lay.dim b.layout))
        (act (I₃.lay.dim c.layout)) (act (I₁.lay.stride a.layout)) (act (I₂.lay.stride b.layout))
        (act (I₃.lay.stride c.layout)) pa pb (act (I₃.dat.get_pointer_mut c.data)) ()) ∧
    (AnyBase.dot I₁ I₂ cfg kern i a b mem = .ub ↔
      FaultyRun [act (I₁.lay.dim a.layout), act (I₂.lay.dim b.layout)] () ∨
      ∃ x y, I₁.lay.dim a.layout = .ok x ∧ I₂.lay.dim b.layout = .ok y ∧
        ∃ R, dotMade cfg i x y mem.bufs.length = some R ∧
          ProductUndefined (fun _ => (⟨mem.bufs ++ [List.replicate R.data.len 0]⟩ : Mem α))
            (act (.ok x)) (act (.ok y)) (act (.ok R.layout.dim)) (act (I₁.lay.stride a.layout))
            (act (I₂.lay.stride b.layout)) (act (.ok (claimed R.layout))) pa pb
            (act (.ok ⟨R.data, 0⟩)) ()) := by
  intro pa pb
  have ub : ∀ {β : Type} (o : Out β), (act o : Act Unit β) () = .ub ↔ o = .ub := by
    intro β o; cases o <;> simp [act]
  have ok : ∀ {β : Type} (o : Out β) (v : β) (t : Unit), (act o : Act Unit β) () = .ok (v, t) ↔
      o = .ok v := by
    intro β o v t; cases o <;> simp [act]
  constructor
  · rw [← ub, ← (C86_agreement_base (S := Unit) I₁ I₂ I₃ kern alpha beta mem a b c 0 0 0
      (fun (x : Unit) v => (x, v)) () a.data a.layout 0 0).2.2.2.2.2.2]
    exact (C86_exact_kernel (I₁.still Unit) (I₂.still Unit) (I₃.still Unit) (I₁.still _) (I₂.still _)
      (I₃.still _) kern alpha beta a b c mem () ((), mem)).1
  · rw [← ub, ← C86_agreement_dot]
    refine (C86_exact_dot_here (I₁.still Unit) (I₂.still Unit) (I₁.still _) (I₂.still _) cfg kern i a b
      mem () ((), mem)).1.trans (or_congr_right ?_)
    simp only [Says]
    constructor
    · rintro ⟨x, y, t, ⟨v, t1, ws, h1, e, v', t2, ws', h2, e', e'', -⟩, R, hR, h⟩
      obtain ⟨rfl, rfl⟩ := List.cons.inj e
      obtain ⟨rfl, rfl⟩ := List.cons.inj e'
      have h1 := (ok _ _ _).1 h1
      have h2 := (ok _ _ _).1 h2
      refine ⟨x, y, h1, h2, R, hR, ?_⟩
      rw [← h1, ← h2]
      exact h
    · rintro ⟨x, y, h1, h2, R, hR, h⟩
      refine ⟨x, y, (), ⟨x, (), [y], (ok _ _ _).2 h1, rfl, y, (), [], (ok _ _ _).2 h2, rfl, rfl, trivial⟩,
        R, hR, ?_⟩
      rw [← h1, ← h2] at h
      exact h

/-! ## Implementations that leave the memory as it is -/

theorem apart_bind {β γ : Type} (x : Mem α → Act S β) (f : β → Act (S × Mem α) γ) (s : S) (mem : Mem α) :
    (Act.apart x >>= f) (s, mem) = (x mem s >>= fun r => f r.1 (r.2, mem)) := by
  rw [bind_run, Act.apart]
  cases x mem s <;> rfl

/-- A loop that keeps the memory in the state instead of in its value. -/
theorem apart_for {τ : Type} {body : Nat → τ × Mem α → Act S (τ × Mem α)}
    {body' : Nat → τ → Act (S × Mem α) τ}
    (h : ∀ i y s mem, body' i y (s, mem) = (body i (y, mem) s >>= fun r => .ok (r.1.1, r.2, r.1.2)))
    (n : Nat) (y : τ) (s : S) (mem : Mem α) :
    forAct n body' y (s, mem) = (forAct n body (y, mem) s >>= fun r => .ok (r.1.1, r.2, r.1.2)) := by
  induction n with
  | zero => rfl
  | succ n ih =>
    rw [forAct_succ, forAct_succ, bind_run, bind_run, ih]
    cases forAct n body (y, mem) s with
    | ok r => simp [h]
    | panic => rfl
    | ub => rfl

/-- The same for a loop whose value is the memory. -/
theorem apart_alone {body : Nat → Mem α → Act S (Mem α)} {body' : Nat → Unit → Act (S × Mem α) Unit}
    {n : Nat} (h : ∀ i s mem, body' i () (s, mem) = (body i mem s >>= fun r => .ok ((), r.2, r.1)))
    (s : S) (mem : Mem α) :
    forAct n body' () (s, mem) = (forAct n body mem s >>= fun r => .ok ((), r.2, r.1)) := by
  induction n with
  | zero => rfl
  | succ n ih =>
    rw [forAct_succ, forAct_succ, bind_run, bind_run, ih]
    cases forAct n body mem s with
    | ok r => simp [h]
    | panic => rfl
    | ub => rfl

theorem apart_assertOr {β : Type} (p : Prop) [Decidable p] (x : Mem α → Act S β) (s : S) (mem : Mem α) :
    assertOr p (Act.apart x >>= fun _ => pure ()) (s, mem) =
      (assertOr p (x mem >>= fun _ => pure ()) s >>= fun r => .ok ((), r.2, mem)) := by
  by_cases h : p
  · rw [assertOr_pos h, assertOr_pos h]; rfl
  · rw [assertOr_neg h, assertOr_neg h]
    simp only [bind_assoc]
    rw [apart_bind, bind_run]
    cases x mem s <;> rfl

theorem apart_layout (A : Acts S α V D X) (m : AnyMat α V D X) :
    A.apart.layout m = Act.apart fun _ => A.layout m := by
  induction m with
  | base b => rfl
  | user x => rfl
  | ref m ih => exact ih
  | addition a b l => rfl
  | scalarMult m v ih => exact ih

theorem apart_get1d_unchecked [Add α] [Mul α] (A : Acts S α V D X) (i : Nat) (m : AnyMat α V D X) :
    A.apart.get1d_unchecked ⟨[]⟩ i m = Act.apart fun mem => A.get1d_unchecked mem i m := by
  funext ⟨s, mem⟩
  induction m generalizing s with
  | base b =>
    simp only [Acts.get1d_unchecked, Acts.base_get1d_unchecked, Acts.apart, Act.apart, bind_run,
      bind_assoc (m := Out), Out.bind_ok]
  | user x => rfl
  | ref m ih => exact ih s
  | addition a b l iha ihb =>
    simp only [Acts.get1d_unchecked, Act.apart, bind_run, bind_assoc (m := Out)] at iha ihb ⊢
    simp only [iha, ihb, bind_assoc (m := Out), Out.bind_ok, pure_run]
  | scalarMult m v ih =>
    simp only [Acts.get1d_unchecked, Act.apart, bind_run, bind_assoc (m := Out)] at ih ⊢
    simp only [ih, bind_assoc (m := Out), Out.bind_ok, pure_run]

theorem apart_get_unchecked [Add α] [Mul α] (A : Acts S α V D X) (i j : Nat) (m : AnyMat α V D X) :
    A.apart.get_unchecked ⟨[]⟩ i j m = Act.apart fun mem => A.get_unchecked mem i j m := by
  funext ⟨s, mem⟩
  induction m generalizing s with
  | base b =>
    simp only [Acts.get_unchecked, Acts.base_get_unchecked, Acts.apart, Act.apart, bind_run,
      bind_assoc (m := Out), Out.bind_ok]
  | user x => rfl
  | ref m ih => exact ih s
  | addition a b l iha ihb =>
    simp only [Acts.get_unchecked, Act.apart, bind_run, bind_assoc (m := Out)] at iha ihb ⊢
    simp only [iha, ihb, bind_assoc (m := Out), Out.bind_ok, pure_run]
  | scalarMult m v ih =>
    simp only [Acts.get_unchecked, Act.apart, bind_run, bind_assoc (m := Out)] at ih ⊢
    simp only [ih, bind_assoc (m := Out), Out.bind_ok, pure_run]

/-- **C86**: for implementations that leave the memory as it is, this is what the code does over
implementations that change (Model/Stateful.lean). -/
theorem C86_apart [Target] [Zero α] [One α] [Add α] [Mul α] (A : Acts S α V D X)
    (A₂ : Acts S α V₂ D₂ X₂) (A₃ : Acts S α V₃ D₃ X₃) (kind : V) (cfg : Cfg) (kern : Kern α)
    (alpha beta : α) (m : AnyMat α V D X) (b : AnyBase V D) (b₂ : AnyBase V₂ D₂) (b₃ : AnyBase V₃ D₃)
    (f : σ → α → σ × α) (x : σ) (r c i : Nat) (di : DotImpl) (s : S) (mem : Mem α) :
    A.apart.get_here m r c (s, mem) = (A.get m mem r c s >>= fun y => .ok (y.1, y.2, mem)) ∧
    A.apart.get1d_here m i (s, mem) = (A.get1d m mem i s >>= fun y => .ok (y.1, y.2, mem)) ∧
    A.apart.for_each_here b (fun x v => pure (f x v)) x (s, mem) =
      (A.for_each b f x mem s >>= fun y => .ok (y.1.1, y.2, y.1.2)) ∧
    A.apart.eval_here kind cfg m (s, mem) =
      (A.eval kind cfg m mem s >>= fun y => .ok (y.1.1, y.2, y.1.2)) ∧
    A.apart.matmul_here A₂.apart A₃.apart kern alpha b b₂ beta b₃ (s, mem) =
      (A.matmul A₂ A₃ kern alpha b b₂ beta b₃ mem s >>= fun y => .ok ((), y.2, y.1)) ∧
    A.apart.dot_here A₂.apart cfg kern di b b₂ (s, mem) =
      (A.dot A₂ cfg kern di b b₂ mem s >>= fun y => .ok (y.1.1, y.2, y.1.2)) := by
  have loop : ∀ (data : Container) (l : V) (k : Nat) (s : S) (mem : Mem α),
      forAct k (fun index (_ : Unit) => do
        let v ← A.apart.get1d_unchecked ⟨[]⟩ index m
        let j ← A.apart.lay.convert_1d_raw l index
        let p ← act (data.get_unchecked_mut j)
        writeHere p v) () (s, mem) = (forAct k (fun index mem => do
        let v ← A.get1d_unchecked mem index m
        let j ← A.lay.convert_1d_raw l index
        let p ← act (data.get_unchecked_mut j)
        act (mem.write p v)) mem s >>= fun y => .ok ((), y.2, y.1)) := by
    intro data l k
    refine apart_alone fun i s mem => ?_
    simp only [apart_get1d_unchecked]
    simp only [Acts.apart, Act.apart, bind_run, bind_assoc (m := Out), Out.bind_ok, act_run, writeHere]
  have matmul : ∀ (b₃ : AnyBase V₃ D₃) (alpha beta : α) (s : S) (mem : Mem α),
      A.apart.matmul_here A₂.apart A₃.apart kern alpha b b₂ beta b₃ (s, mem) =
      (A.matmul A₂ A₃ kern alpha b b₂ beta b₃ mem s >>= fun y => .ok ((), y.2, y.1)) := by
    intro b₃ alpha beta s mem
    simp only [Acts.matmul_here, Acts.matmul, Acts.apart, Act.apart, bind_run, bind_assoc (m := Out),
      Out.bind_ok, act_run]
  refine ⟨?_, ?_, ?_, ?_, matmul b₃ alpha beta s mem, ?_⟩
  · simp only [Acts.get_here, Acts.get, apart_layout, apart_get_unchecked, bind_run]
    simp only [Acts.apart, Act.apart, bind_assoc (m := Out), Out.bind_ok, act_run]
  · simp only [Acts.get1d_here, Acts.get1d, apart_layout, apart_get1d_unchecked, bind_run]
    simp only [Acts.apart, Act.apart, bind_assoc (m := Out), Out.bind_ok, act_run]
  · simp only [Acts.for_each_here, Acts.for_each, bind_run]
    simp only [Acts.apart, Act.apart, bind_assoc (m := Out), Out.bind_ok]
    refine congrArg _ (funext fun n => ?_)
    refine apart_for (fun i y s mem => ?_) _ _ _ _
    simp only [Acts.get1d_unchecked_mut, readHere, writeHere, Act.apart, bind_run, bind_assoc (m := Out),
      Out.bind_ok, act_run, pure_run]
  · simp only [Acts.eval_here, Acts.eval, bind_run, loop, newVectorHere, bind_assoc (m := Out), act_run,
      Out.bind_ok, pure_run, apart_layout]
    simp only [Acts.apart, Act.apart, bind_assoc (m := Out), Out.bind_ok, apart_assertOr]
  · have h3 : ∀ (x : BaseMatrix) (s : S) (mem : Mem α),
        A.apart.matmul_here A₂.apart ((crateImpls cfg α).still (S × Mem α)) kern 1 b b₂ 0
          ⟨x.data, x.layout⟩ (s, mem) =
        (A.matmul A₂ ((crateImpls cfg α).still S) kern 1 b b₂ 0 ⟨x.data, x.layout⟩ mem s >>= fun y =>
          .ok ((), y.2, y.1)) := by
      intro x s mem
      simp only [Acts.matmul_here, Acts.matmul, Acts.apart, Act.apart, bind_run, bind_assoc (m := Out),
        Out.bind_ok, act_run, Impls.still, LayoutImpl.still, DataImpl.still]
    simp only [Acts.dot_here, Acts.dot, bind_run, bind_assoc (m := Out), h3, act_run, Out.bind_ok, pure_run]
    simp only [Acts.apart, Act.apart, bind_assoc (m := Out), Out.bind_ok]
    cases di <;> rfl

/-! ## Examples -/

/-- A matrix of one row and two columns that keeps its elements in the allocation that the state
names, and moves them to a new one, freeing the old one, whenever its pointer is asked for. -/
def moving : Acts (Nat × Mem Int) Int Unit Unit Empty where
  lay := ⟨fun _ w => .ok ((2, 1), w), fun _ w => .ok ((1, 2), w), fun _ w => .ok (2, w),
    fun _ i w => .ok ((0, i), w), fun _ _ c w => .ok (c, w), fun _ i w => .ok (i, w),
    fun _ _ c w => .ok (c, w), fun l w => .ok (l, w), fun l _ w => .ok (l, w)⟩
  dat := ⟨fun _ _ k w => w.2.read ⟨w.1, k⟩ >>= fun v => .ok (v, w),
    fun _ k w => .ok (⟨w.1, k⟩, w), move, move, fun _ w => .ok (2, w)⟩
  mat := ⟨nofun, nofun, nofun⟩
where
  move : Unit → Act (Nat × Mem Int) Ptr := fun _ w =>
    .ok (⟨⟨w.2.bufs.length, 0, 2⟩, 0⟩, w.2.bufs.length,
      ⟨w.2.bufs.set w.1 [] ++ [w.2.bufs.getD w.1 []]⟩)

/-- Another one, of two rows and one column, that does not move. -/
def resting : Acts (Nat × Mem Int) Int Unit Unit Empty where
  lay := ⟨fun _ w => .ok ((1, 1), w), fun _ w => .ok ((2, 1), w), fun _ w => .ok (2, w),
    fun _ i w => .ok ((i, 0), w), fun _ r _ w => .ok (r, w), fun _ i w => .ok (i, w),
    fun _ r _ w => .ok (r, w), fun l w => .ok (l, w), fun l _ w => .ok (l, w)⟩
  dat := ⟨fun _ _ k w => w.2.read ⟨1, k⟩ >>= fun v => .ok (v, w), fun _ k w => .ok (⟨1, k⟩, w),
    fun _ w => .ok (⟨⟨1, 0, 2⟩, 0⟩, w), fun _ w => .ok (⟨⟨1, 0, 2⟩, 0⟩, w), fun _ w => .ok (2, w)⟩
  mat := ⟨nofun, nofun, nofun⟩

/-- `for_each` and evaluation can be called; a callable that moves the matrix cannot be given to
`for_each`. -/
example : let b : AnyBase Unit Unit := ⟨(), ()⟩
    let w : Nat × Mem Int := (0, ⟨[[5, 6], [7, 8]]⟩)
    let moves : Unit → Int → Act (Nat × Mem Int) (Unit × Int) := fun _ v => do
      let _ ← moving.move ()
      return ((), v + 1)
    FaultyRun ((List.range 2).map fun i => useHere (askPlace1d moving b i) moves) (w, ()) ∧
    moving.for_each_here b (fun _ v => pure ((), v + 1)) () w = .ok ((), 0, ⟨[[6, 7], [7, 8]]⟩) ∧
    ¬ EvalFaultyHere moving () dbg (.base b) w ∧
    EvalFaultyHere moving () dbg (.base b) (7, w.2) := by
  intro b w moves
  refine ⟨?_, by rfl, ?_, ?_⟩
  · rcases (C86_exact_here moving () dbg (.base b) b moves () 0 0 0 w).2.2.1.1 (by rfl) with h | ⟨n, w', h, h'⟩
    · cases h
    · cases h; exact h'
  · intro h
    have e : moving.eval_here () dbg (.base b) w =
        .ok (⟨⟨2, 0, 2⟩, ()⟩, 0, ⟨[[5, 6], [7, 8], [5, 6]]⟩) := by rfl
    have := (C86_exact_here moving () dbg (.base b) b moves () 0 0 0 w).2.2.2.2 h
    rw [e] at this
    cases this
  · exact (C86_exact_here moving () dbg (.base b) b moves () 0 0 0 (7, w.2)).2.2.2.1 (by rfl)

/-- The product with a matrix that moves once is fine, and that of one that is moved by its factor is
not: the pointer that it was asked for first is left dangling. -/
example : let b : AnyBase Unit Unit := ⟨(), ()⟩
    let w : Nat × Mem Int := (0, ⟨[[5, 6], [7, 8]]⟩)
    let turned : Acts (Nat × Mem Int) Int Unit Unit Empty :=
      { moving with lay := { moving.lay with dim := fun _ w => .ok ((2, 1), w),
                                             stride := fun _ w => .ok ((1, 2), w) } }
    moving.dot_here resting dbg exactKern .matMat b b w =
      .ok (⟨⟨2, 0, 1⟩, .rowMajor ⟨(1, 1)⟩, .dynamic, .dynamic⟩, 3, ⟨[[], [7, 8], [83], [5, 6]]⟩) ∧
    moving.dot_here turned dbg exactKern .matMat b b w = .ub := by
  intro b w turned
  exact ⟨by rfl, by rfl⟩

/-- A container of one element whose pointer leads to an allocation, by number, that may not exist. -/
def distant (buf : Nat) : Impls Int Unit Unit Empty where
  lay := ⟨fun _ => .ok (1, 1), fun _ => .ok (1, 1), fun _ => .ok 1, fun _ _ => .ok (0, 0),
    fun _ _ _ => .ok 0, fun _ _ => .ok 0, fun _ _ _ => .ok 0, fun l => .ok l, fun l _ => .ok l⟩
  dat := ⟨fun _ _ _ => .ok 0, fun _ _ => .ok ⟨buf, 0⟩, fun _ => .ok ⟨⟨buf, 0, 1⟩, 0⟩,
    fun _ => .ok ⟨⟨buf, 0, 1⟩, 0⟩, fun _ => .ok 1⟩
  mat := ⟨nofun, nofun, nofun⟩

/-- The product is undefined if an operand is not there, unless it is not needed. -/
example : let b : AnyBase Unit Unit := ⟨(), ()⟩
    let mem : Mem Int := ⟨[[5], [6]]⟩
    let narrow : Impls Int Unit Unit Empty :=
      { distant 1 with lay := { (distant 1).lay with dim := fun _ => .ok (1, 0) } }
    AnyBase.dot (distant 0) (distant 1) dbg exactKern .matMat b b mem =
      .ok (⟨⟨2, 0, 1⟩, .rowMajor ⟨(1, 1)⟩, .dynamic, .dynamic⟩, ⟨[[5], [6], [30]]⟩) ∧
    AnyBase.dot (distant 9) (distant 1) dbg exactKern .matMat b b mem = .ub ∧
    AnyBase.dot (distant 9) narrow dbg exactKern .matMat b b mem =
      .ok (⟨⟨2, 0, 0⟩, .rowMajor ⟨(1, 0)⟩, .dynamic, .dynamic⟩, ⟨[[5], [6], []]⟩) := by
  intro b mem narrow
  exact ⟨by rfl, by rfl, by rfl⟩

end Householder.Props
