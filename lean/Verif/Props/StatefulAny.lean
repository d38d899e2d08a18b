import Verif.Spec.StatefulAny
import Verif.Props.StatefulExact

/-!
# `for_each` and evaluation over any implementations whatever (C74, C86)
-/

namespace Householder.Props

open Spec

variable {S α V D X : Type}

theorem askPlace2d_run (A : Acts S α V D X) (b : AnyBase V D) (r c : Nat) :
    askPlace2d A b r c = A.get_unchecked_mut b r c := by
  funext s
  rw [Acts.get_unchecked_mut, bind_run, askPlace2d]
  cases A.lay.convert_2d_raw b.layout r c s <;> rfl

theorem askPlace1d_run (A : Acts S α V D X) (b : AnyBase V D) (i : Nat) :
    askPlace1d A b i = A.get1d_unchecked_mut b i := by
  funext s
  rw [Acts.get1d_unchecked_mut, bind_run, askPlace1d]
  cases A.lay.convert_1d_raw b.layout i s <;> rfl

theorem askNumber_run (A : Acts S α V D X) (m : AnyMat α V D X) :
    askNumber A m = A.layout m >>= A.lay.number_of_elements := by
  funext s
  rw [bind_run, askNumber]
  cases A.layout m s <;> rfl

theorem askNew_run (A : Acts S α V D X) (kind : V) (d : Nat × Nat) :
    askNew A kind d = A.lay.from_dimension kind d >>= fun l =>
      A.lay.number_of_elements l >>= fun n => pure (l, n) := by
  funext s
  rw [bind_run, askNew]
  cases A.lay.from_dimension kind d s with
  | ok x =>
    simp only [Out.bind_ok, bind_run]
    cases A.lay.number_of_elements x.1 x.2 <;> rfl
  | panic => rfl
  | ub => rfl

/-- Loops whose rounds each need one answer. -/
theorem needsRun_for {σ β : Type} {body : Nat → σ → Act S σ} {x : Nat → Act S β} (P : σ → Prop)
    (hb : ∀ i y s, P y → NeedsRun (body i y s) [x i] s)
    (hP : ∀ i y z s t, P y → body i y s = .ok (z, t) → P z) {y : σ} (hy : P y) (n : Nat) (s : S) :
    NeedsRun (forAct n body y s) ((List.range n).map x) s ∧
      ∀ z t, forAct n body y s = .ok (z, t) → P z := by
  induction n with
  | zero => exact ⟨.none y s, fun z t h => by cases h; exact hy⟩
  | succ n ih =>
    rw [forAct_succ, bind_run, List.range_succ, List.map_append]
    refine ⟨ih.1.bind fun z t hz => ?_, fun z t h => ?_⟩
    · simpa using hb n z t (ih.2 z t hz)
    · obtain ⟨⟨w, u⟩, h1, h2⟩ := Out.bind_eq_ok.1 h
      exact hP n w z u t (ih.2 w u h1) h2

/-- A loop over a memory, seen as calls that change the memory along with the state. -/
theorem run_for {M : Type} {body : Nat → M → Act S M} {x : Nat → Act (S × M) Unit}
    (hb : ∀ i mem s, (x i (s, mem) = .ub ↔ body i mem s = .ub) ∧
      ∀ mem' t, x i (s, mem) = .ok ((), t, mem') ↔ body i mem s = .ok (mem', t))
    (mem : M) (n : Nat) (s : S) :
    (forAct n body mem s = .ub ↔ FaultyRun ((List.range n).map x) (s, mem)) ∧
      ∀ mem' t, forAct n body mem s = .ok (mem', t) ↔
        Answered ((List.range n).map x) (s, mem) (t, mem') := by
  induction n with
  | zero =>
    refine ⟨⟨fun h => (nomatch h), fun h => absurd h faultyRun_nil⟩, fun mem' t => ?_⟩
    constructor
    · intro h; cases h; rfl
    · intro h; cases (show (s, mem) = (t, mem') from h); rfl
  | succ n ih =>
    rw [forAct_succ, bind_run, List.range_succ, List.map_append, Out.bind_eq_ub, faultyRun_append, ih.1]
    constructor
    · refine or_congr_right ⟨?_, ?_⟩
      · rintro ⟨⟨mem1, t⟩, h1, h2⟩
        exact ⟨(t, mem1), (ih.2 mem1 t).1 h1, faultyRun_cons.2 (.inl ((hb n mem1 t).1.2 h2))⟩
      · rintro ⟨⟨t, mem1⟩, h1, h2⟩
        refine ⟨(mem1, t), (ih.2 mem1 t).2 h1, ?_⟩
        rcases faultyRun_cons.1 h2 with h | ⟨_, _, _, h⟩
        · exact (hb n mem1 t).1.1 h
        · exact absurd h faultyRun_nil
    · intro mem' t
      rw [Out.bind_eq_ok, answered_append]
      constructor
      · rintro ⟨⟨mem1, u⟩, h1, h2⟩
        exact ⟨(u, mem1), (ih.2 mem1 u).1 h1, (), (t, mem'), ((hb n mem1 u).2 mem' t).2 h2, rfl⟩
      · rintro ⟨⟨u, mem1⟩, h1, ⟨⟩, _, h2, h3⟩
        cases (show _ = (t, mem') from h3)
        exact ⟨(mem1, u), (ih.2 mem1 u).2 h1, ((hb n mem1 u).2 mem' t).1 h2⟩

theorem NeedsRun.same {γ β : Type} {o : Out (γ × S)} {x : Act S β} {s : S}
    (hu : o = .ub ↔ x s = .ub) (ho : ∀ t, (∃ v, o = .ok (v, t)) ↔ ∃ v, x s = .ok (v, t)) :
    NeedsRun o [x] s :=
  ⟨hu.trans (NeedsRun.one x s).ub, fun t => (ho t).trans ((NeedsRun.one x s).ok t)⟩

/-- **C86, exactly**: mutable access and `for_each` over any layouts and containers whatever that
change. Access is undefined exactly if one of its calls is; `for_each` is undefined exactly if the
first place that it does not get is undefined or does not exist. What the closure does to the elements
does not matter. -/
theorem C86_exact_each {σ : Type} (A : Acts S α V D X) (b : AnyBase V D) (mem : Mem α) (r c i : Nat)
    (f : σ → α → σ × α) (x : σ) (s : S) :
    (A.get_mut b r c s = .ub ↔ A.lay.dim b.layout s = .ub ∨ ∃ d t, A.lay.dim b.layout s = .ok (d, t) ∧
      r < d.1 ∧ c < d.2 ∧ askPlace2d A b r c t = .ub) ∧
    (A.get1d_mut b i s = .ub ↔ A.lay.number_of_elements b.layout s = .ub ∨
      ∃ n t, A.lay.number_of_elements b.layout s = .ok (n, t) ∧ i < n ∧ askPlace1d A b i t = .ub) ∧
    (A.for_each b f x mem s = .ub ↔ A.lay.number_of_elements b.layout s = .ub ∨
      ∃ n t, A.lay.number_of_elements b.layout s = .ok (n, t) ∧
        FaultyRun ((List.range n).map fun i => usePlace mem (askPlace1d A b i)) t) := by
  refine ⟨?_, ?_, ?_⟩
  · rw [askPlace2d_run]
    exact ub_dimension_run fun t => Iff.rfl
  · rw [askPlace1d_run]
    exact ub_number_run fun t => Iff.rfl
  · unfold Acts.for_each
    rw [bind_run, Out.bind_eq_ub, Prod.exists]
    refine or_congr_right (exists_congr fun n => exists_congr fun t => and_congr_right fun _ => ?_)
    refine (needsRun_for (P := fun y : σ × Mem α => ∀ q, y.2.size q = mem.size q) ?_ ?_
      (fun _ => rfl) n t).1.ub
    · rintro i ⟨x1, mem1⟩ u hP
      dsimp only at hP ⊢
      rw [askPlace1d_run, bind_run]
      cases hp : A.get1d_unchecked_mut b i u with
      | panic => exact NeedsRun.same (by simp [usePlace, hp]) (by simp [usePlace, hp])
      | ub => exact NeedsRun.same (by simp [usePlace, hp]) (by simp [usePlace, hp])
      | ok y =>
        obtain ⟨p, w⟩ := y
        by_cases hlt : p.idx < mem.size p.buf
        · obtain ⟨v, hv, -⟩ := Mem.read_ok (mem := mem1) (p := p) (by rw [hP]; exact hlt)
          obtain ⟨mem2, hw, -⟩ := Mem.write_upd (mem := mem1) (p := p) (v := (f x1 v).2)
            (by rw [hP]; exact hlt)
          simp only [bind_run, act_run, hv, hw, Out.bind_ok, pure_run]
          exact NeedsRun.same (by simp [usePlace, hp, hlt]) (by simp [usePlace, hp, hlt])
        · have hv : mem1.read p = .ub := by
            rw [Mem.read, Mem.get?_eq_none (by rw [hP]; exact Nat.le_of_not_lt hlt)]
          simp only [bind_run, act_run, hv, Out.bind_ok, Out.bind_ub]
          exact NeedsRun.same (by simp [usePlace, hp, hlt]) (by simp [usePlace, hp, hlt])
    · rintro i ⟨x1, mem1⟩ ⟨x2, mem2⟩ u w hP h q
      dsimp only at hP h ⊢
      rw [bind_run, Out.bind_eq_ok] at h
      obtain ⟨⟨p, u1⟩, -, h⟩ := h
      rw [bind_run, Out.bind_eq_ok] at h
      obtain ⟨⟨v, u2⟩, hv, h⟩ := h
      rw [bind_run, Out.bind_eq_ok] at h
      obtain ⟨⟨mem3, u3⟩, hw, h⟩ := h
      cases h
      rw [act_run, Out.bind_eq_ok] at hv hw
      obtain ⟨v', hv, e⟩ := hv
      obtain ⟨mem4, hw, e'⟩ := hw
      cases e; cases e'
      have hlt : p.idx < mem1.size p.buf := Mem.get?_isSome_iff.1 ⟨v, Mem.read_ok_iff.1 hv⟩
      obtain ⟨mem5, hw', hu⟩ := Mem.write_upd (mem := mem1) (p := p) (v := (f x1 v).2) hlt
      rw [hw] at hw'
      cases hw'
      rw [hu.size, hP]

/-- **C86, exactly**: evaluation of any expression over any implementations whatever that change. -/
theorem C86_exact_eval [Target] [Zero α] [Add α] [Mul α] (A : Acts S α V D X) (kind : V) (cfg : Cfg)
    (m : AnyMat α V D X) (mem : Mem α) (s : S) :
    A.eval kind cfg m mem s = .ub ↔ EvalFaulty A kind cfg m mem s := by
  have split : A.eval kind cfg m mem = askDim A m >>= fun dim => askNew A kind dim >>= fun ln =>
      act (Container.newVector cfg mem ln.2) >>= fun dm => askNew A kind dim >>= fun ln' =>
      assertOr (ln'.2 ≤ dm.1.number_of_elements)
        (A.lay.number_of_elements ln'.1 >>= fun _ => pure ()) >>= fun _ =>
      askNumber A m >>= fun k => forAct k (fun index mem => do
        let v ← A.get1d_unchecked mem index m
        let j ← A.lay.convert_1d_raw ln'.1 index
        let p ← act (dm.1.get_unchecked_mut j)
        act (mem.write p v)) dm.2 >>= fun mem1 => pure (⟨dm.1, ln'.1⟩, mem1) := by
    simp only [Acts.eval, askDim_run, askNew_run, askNumber_run, bind_assoc, pure_bind]
  rw [split]
  unfold EvalFaulty
  rw [bind_run, Out.bind_eq_ub, Prod.exists]
  refine or_congr_right (exists_congr fun d => exists_congr fun s1 => and_congr_right fun _ => ?_)
  rw [bind_run, Out.bind_eq_ub]
  refine or_congr_right ?_
  refine (Prod.exists.trans Prod.exists).trans ?_
  refine exists_congr fun l => exists_congr fun n => exists_congr fun s2 => and_congr_right fun _ => ?_
  dsimp only
  by_cases hroom : n * cfg.item.size ≤ isizeMax
  swap
  · simp [Container.newVector, hroom, act, bind_run]
  have hnew : Container.newVector cfg mem n =
      .ok (⟨mem.bufs.length, 0, n⟩, ⟨mem.bufs ++ [List.replicate n 0]⟩) := by
    simp [Container.newVector, hroom, Mem.alloc]
  rw [hnew, act_ok, pure_bind]
  simp only [hroom, true_and]
  rw [bind_run, Out.bind_eq_ub]
  refine or_congr_right ((Prod.exists.trans Prod.exists).trans ?_)
  refine exists_congr fun l' => exists_congr fun n' => exists_congr fun s3 => and_congr_right fun _ => ?_
  dsimp only
  by_cases hle : n' ≤ n
  swap
  · rw [assertOr_neg (show ¬ n' ≤ (⟨mem.bufs.length, 0, n⟩ : Container).number_of_elements from hle),
      if_neg hle, bind_assoc, bind_assoc, bind_run, Out.bind_eq_ub]
    exact or_iff_left (by rintro ⟨x, -, h⟩; cases h)
  rw [assertOr_pos (show n' ≤ (⟨mem.bufs.length, 0, n⟩ : Container).number_of_elements from hle),
    if_pos hle, pure_bind, bind_run, Out.bind_eq_ub, Prod.exists]
  refine or_congr_right (exists_congr fun k => exists_congr fun s4 => and_congr_right fun _ => ?_)
  dsimp only
  rw [bind_run, Out.bind_eq_ub]
  refine (or_iff_left (by rintro ⟨x, -, h⟩; cases h)).trans ?_
  refine (run_for (x := copied A m l' mem.bufs.length n) ?_ _ k s4).1
  intro i mem1 t
  simp only [bind_run, copied]
  cases A.get1d_unchecked mem1 i m t with
  | panic => simp
  | ub => simp
  | ok v =>
    obtain ⟨v, t1⟩ := v
    simp only [Out.bind_ok]
    cases A.lay.convert_1d_raw l' i t1 with
    | panic => simp
    | ub => simp
    | ok k =>
      obtain ⟨k, t2⟩ := k
      simp only [Out.bind_ok, Container.get_unchecked_mut]
      by_cases hk : k < n
      swap
      · simp [hk, act]
      simp only [hk, if_true, true_and, act_run, Out.bind_ok, Nat.zero_add]
      by_cases hq : k < mem1.size mem.bufs.length
      · obtain ⟨w, hw⟩ := Mem.get?_isSome_iff.2
          (show (⟨mem.bufs.length, k⟩ : Loc).idx < mem1.size (⟨mem.bufs.length, k⟩ : Loc).buf from hq)
        simp only [hq, if_true, Mem.write, hw, Out.bind_ok]
        simp [and_comm, eq_comm]
      · have hg : mem1.get? ⟨mem.bufs.length, k⟩ = none := Mem.get?_eq_none (Nat.le_of_not_lt hq)
        simp [hq, Mem.write, hg]

/-- **C74, exactly**: the same for implementations that do not change. -/
theorem C74_exact_any [Target] [Zero α] [Add α] [Mul α] {σ : Type} (I : Impls α V D X) (cfg : Cfg)
    (m : AnyMat α V D X) (b : AnyBase V D) (mem : Mem α) (r c i : Nat) (f : σ → α → σ × α) (x : σ) :
    let A := I.still Unit
    (b.get_mut I r c = .ub ↔ I.lay.dim b.layout = .ub ∨ ∃ d, I.lay.dim b.layout = .ok d ∧
      r < d.1 ∧ c < d.2 ∧ askPlace2d A b r c () = .ub) ∧
    (b.get1d_mut I i = .ub ↔ I.lay.number_of_elements b.layout = .ub ∨
      ∃ n, I.lay.number_of_elements b.layout = .ok n ∧ i < n ∧ askPlace1d A b i () = .ub) ∧
    (b.for_each I f x mem = .ub ↔ I.lay.number_of_elements b.layout = .ub ∨
      ∃ n, I.lay.number_of_elements b.layout = .ok n ∧
        FaultyRun ((List.range n).map fun i => usePlace mem (askPlace1d A b i)) ()) ∧
    (m.eval I cfg mem = .ub ↔ EvalFaulty A (m.layout I) cfg m mem ()) := by
  intro A
  have ub : ∀ {β : Type} (o : Out β), (act o : Act Unit β) () = .ub ↔ o = .ub := by
    intro β o; cases o <;> simp [act]
  have ok : ∀ {β : Type} (o : Out β) (P : β → Unit → Prop),
      (∃ v t, (act o : Act Unit β) () = .ok (v, t) ∧ P v t) ↔ ∃ v, o = .ok v ∧ P v () := by
    intro β o P
    cases o with
    | ok v =>
      simp only [act, Out.bind_ok, Out.ok.injEq, Prod.mk.injEq, exists_eq_left']
      exact ⟨fun ⟨_, _, ⟨h, _⟩, h'⟩ => h ▸ h', fun h => ⟨v, (), ⟨rfl, trivial⟩, h⟩⟩
    | panic => simp [act]
    | ub => simp [act]
  have h := C86_exact_each A b mem r c i f x ()
  have hbase := C86_agreement_base (S := Unit) I I I (fun _ a _ _ _ => a) 0 0 mem b b b r c i f x
    b.data b.layout 0 0
  have hd : A.lay.dim b.layout = act (I.lay.dim b.layout) := rfl
  have hn : A.lay.number_of_elements b.layout = act (I.lay.number_of_elements b.layout) := rfl
  rw [hbase.2.1, hbase.2.2.1, hbase.2.2.2.1, hd, hn] at h
  simp only [ub] at h
  refine ⟨h.1.trans (or_congr_right (ok _ fun (d : Nat × Nat) t => r < d.1 ∧ c < d.2 ∧ askPlace2d A b r c t = .ub)),
    h.2.1.trans (or_congr_right (ok _ fun n t => i < n ∧ askPlace1d A b i t = .ub)),
    h.2.2.trans (or_congr_right (ok _ fun n t =>
      FaultyRun ((List.range n).map fun i => usePlace mem (askPlace1d A b i)) t)), ?_⟩
  rw [← ub, ← (C86_agreement (S := Unit) I cfg mem m m r c i).2.2.2]
  exact C86_exact_eval A (m.layout I) cfg m mem ()

/-! ## Examples -/

/-- A vector whose state counts the calls of its container. Its container holds two elements of the
first allocation and hands out, from the third call on, places that do not exist, and undefined
values. -/
def wearing (len : Nat) : Acts Nat Int Unit Unit Empty where
  lay := ⟨fun _ s => .ok ((1, 1), s), fun _ s => .ok ((len, 1), s), fun _ s => .ok (len, s),
    fun _ i s => .ok ((i, 0), s), fun _ r _ s => .ok (r, s), fun _ i s => .ok (i, s),
    fun _ r _ s => .ok (r, s), fun l s => .ok (l, s), fun l _ s => .ok (l, s)⟩
  dat := ⟨fun _ _ k s => if s < 2 then .ok (k, s + 1) else .ub,
    fun _ k s => .ok (if s < 2 then ⟨0, k⟩ else ⟨7, k⟩, s + 1), fun _ s => .ok (⟨⟨0, 0, 2⟩, 0⟩, s),
    fun _ s => .ok (⟨⟨0, 0, 2⟩, 0⟩, s), fun _ s => .ok (2, s)⟩
  mat := ⟨nofun, nofun, nofun⟩

/-- With two elements `for_each` and `eval` can be called once, not twice; with three, not at all. -/
example : let b : AnyBase Unit Unit := ⟨(), ()⟩
    let mem : Mem Int := ⟨[[5, 6]]⟩
    (∃ n t, (wearing 3).lay.number_of_elements () 0 = .ok (n, t) ∧
      FaultyRun ((List.range n).map fun i => usePlace mem (askPlace1d (wearing 3) b i)) t) ∧
    EvalFaulty (wearing 3) () dbg (.base b) mem 0 ∧ EvalFaulty (wearing 2) () dbg (.base b) mem 1 ∧
    ¬ EvalFaulty (wearing 2) () dbg (.base b) mem 0 ∧
    (wearing 2).for_each b (fun (x : Unit) v => (x, v + 1)) () mem 0 = .ok (((), ⟨[[6, 7]]⟩), 2) := by
  intro b mem
  refine ⟨?_, ?_, ?_, ?_, rfl⟩
  · rcases (C86_exact_each (wearing 3) b mem 0 0 0 (fun (x : Unit) v => (x, v + 1)) () 0).2.2.1
      (by decide) with h | h
    · cases h
    · exact h
  · exact (C86_exact_eval (wearing 3) () dbg (.base b) mem 0).1 (by rfl)
  · exact (C86_exact_eval (wearing 2) () dbg (.base b) mem 1).1 (by rfl)
  · intro h
    have e : (wearing 2).eval () dbg (.base b) mem 0 =
        .ok ((⟨⟨1, 0, 2⟩, ()⟩, ⟨[[5, 6], [0, 1]]⟩), 2) := by rfl
    have := (C86_exact_eval (wearing 2) () dbg (.base b) mem 0).2 h
    rw [e] at this
    cases this

end Householder.Props
