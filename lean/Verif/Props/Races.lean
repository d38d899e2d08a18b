import Verif.Lemmas.Races
import Verif.Props.ForkJoin

/-!
# C95: which threads race, and what those can rely on that do not

`C91`, `C93` and `C94` assume that the threads keep to zones. Here there are no zones: the theorems are
about any threads, whatever they do with their matrices.
-/

namespace Householder.Props

open Spec Steps

variable {ι α : Type}

section

variable [Target] [Zero α] [One α] [Add α] [Mul α] [DecidableEq ι]

variable {cfg : Cfg} {K : GemmArgs α → Steps α Unit} {P : Crew ι α} {mem : Mem α}

/-- **C95**: threads that have defined behaviour alone can come into a race exactly when one of them,
alone, writes to a place that another, alone, reads or writes. -/
theorem C95_races (hK : Orderly K) (hm : ∀ k, ∀ m ∈ P.mats k, LivesIn mem.bufs.length m)
    (hd : ∀ k n, alone cfg K (P.prog k) ⟨mem, P.mats k⟩ n ≠ none) :
    (∃ ks s, (Scene.start P mem).moves cfg K P ks = some s ∧ s.Race) ↔ Conflict cfg K P mem := by
  constructor
  · rintro ⟨ks, s, e, hr⟩
    by_contra hc
    obtain ⟨s', e', hn, -⟩ := C91_any_schedule hK hm hd (accesses_apart hc) accesses_confined ks
    rw [e] at e'
    cases e'
    exact hn hr
  · intro h
    obtain ⟨ks, s, k, l, w, p, e, hne, h1, h2, -⟩ := conflict_race hK hm hd h
    exact ⟨ks, s, e, k, l, true, w, p, hne, h1, h2, .inl rfl⟩

/-- **C95** in any order of stores: the same threads race. -/
theorem C95_weak_races (hK : Orderly K) (hm : ∀ k, ∀ m ∈ P.mats k, LivesIn mem.bufs.length m)
    (hd : ∀ k n, alone cfg K (P.prog k) ⟨mem, P.mats k⟩ n ≠ none) :
    (∃ es w, (Weak.start P mem).run cfg K P es = some w ∧ w.Race) ↔ Conflict cfg K P mem := by
  constructor
  · rintro ⟨es, w, e, hr⟩
    by_contra hc
    obtain ⟨w', e', hn, -⟩ := C93_any_order hK hm hd (accesses_apart hc) accesses_confined es
    rw [e] at e'
    cases e'
    exact hn hr
  · intro h
    obtain ⟨ks, s, k, l, b, p, e, hne, h1, h2, hg⟩ := conflict_race hK hm hd h
    obtain ⟨es, w, ew, ht, hv⟩ := C93_includes (all := [k, l]) e
    obtain ⟨v, hg⟩ := Option.isSome_iff_exists.1 hg
    have hk := hv k (by simp)
    have hl := hv l (by simp)
    -- both make their access
    have one : ∀ (j : ι) (b : Bool) (w : Weak ι α), (w.view j).get? p = some v →
        (w.task j).about = some (b, p) →
        ∃ w', w.move cfg K P j = some w' ∧ w'.past = w.past ++ [(j, b, p)] ∧
          (∀ i, i ≠ j → w'.view i = w.view i) ∧ ∀ i, i ≠ j → w'.task i = w.task i := by
      intro j b w hg ha
      unfold Task.about at ha
      unfold Weak.move
      split at ha
      · rename_i q f hc
        cases ha
        simp only [hc, hg, Option.bind_some]
        exact ⟨_, rfl, rfl, fun _ _ => rfl, fun i hi => weak_put_other w hi _⟩
      · rename_i q u f hc
        cases ha
        simp only [hc, hg, Option.bind_some]
        refine ⟨_, rfl, rfl, fun i hi => ?_, fun i hi => weak_put_other (w.see j p u) hi _⟩
        simp only [Weak.put, Weak.see, if_neg hi]
      · cases ha
    obtain ⟨w1, e1, p1, v1, t1⟩ := one k true w (by rw [hk, hg]) (by rw [ht]; exact h1)
    obtain ⟨w2, e2, p2, -, -⟩ := one l b w1 (by rw [v1 l hne.symm, hl, hg])
      (by rw [t1 l hne.symm, ht]; exact h2)
    refine ⟨es ++ [.move k, .move l], w2, ?_, k, l, true, b, p, hne, ?_, ?_, .inl rfl⟩
    · rw [weak_run_append, ew, Option.bind_some, Weak.run, Weak.happen, e1, Option.bind_some, Weak.run,
        Weak.happen, e2]
      rfl
    · rw [p2, p1]; simp
    · rw [p2]; simp

/-- Threads of which no schedule leads to a race: whatever the schedule, their behaviour is defined,
each observes what it observes alone, and between its operations it finds, wherever it ever reads or
writes, what it finds there alone. -/
theorem C95_free_of_races (hK : Orderly K) (hm : ∀ k, ∀ m ∈ P.mats k, LivesIn mem.bufs.length m)
    (hd : ∀ k n, alone cfg K (P.prog k) ⟨mem, P.mats k⟩ n ≠ none)
    (hr : ∀ ks s, (Scene.start P mem).moves cfg K P ks = some s → ¬ s.Race) (ks : List ι) :
    ∃ s, (Scene.start P mem).moves cfg K P ks = some s ∧
      ∀ k, ∃ n x, alone cfg K (P.prog k) ⟨mem, P.mats k⟩ n = some x ∧ (s.task k).seen = x.1 ∧
        ((s.task k).cur = none → ∀ b p, p.buf < mem.bufs.length → Accesses cfg K P mem k (b, p) →
          s.mem.get? p = x.2.mem.get? p) := by
  have hc : ¬ Conflict cfg K P mem := fun h => by
    obtain ⟨ks, s, e, h⟩ := (C95_races hK hm hd).2 h
    exact hr ks s e h
  obtain ⟨s, e, -, h⟩ := C91_any_schedule hK hm hd (accesses_apart hc) accesses_confined ks
  refine ⟨s, e, fun k => ?_⟩
  obtain ⟨n, x, hx, h1, h2⟩ := h k
  refine ⟨n, x, hx, h1, fun hi b p hp ha => h2 hi p hp ?_⟩
  cases b with
  | false => exact .inl ⟨hp, ha⟩
  | true => exact .inr ⟨hp, ha⟩

/-- Threads that do not race when they take turns in one memory need not know that stores are seen late,
in any order, or early: they observe what they observe alone. (So in particular what they observe when
they take turns.) -/
theorem C95_any_order (hK : Orderly K) (hm : ∀ k, ∀ m ∈ P.mats k, LivesIn mem.bufs.length m)
    (hd : ∀ k n, alone cfg K (P.prog k) ⟨mem, P.mats k⟩ n ≠ none)
    (hr : ∀ ks s, (Scene.start P mem).moves cfg K P ks = some s → ¬ s.Race) (es : List (Happening ι)) :
    ∃ w, (Weak.start P mem).run cfg K P es = some w ∧ ¬ w.Race ∧
      ∀ k, ∃ n x, alone cfg K (P.prog k) ⟨mem, P.mats k⟩ n = some x ∧ (w.task k).seen = x.1 ∧
        ((w.task k).cur = none → ∀ b p, p.buf < mem.bufs.length → Accesses cfg K P mem k (b, p) →
          (w.view k).get? p = x.2.mem.get? p) := by
  have hc : ¬ Conflict cfg K P mem := fun h => by
    obtain ⟨ks, s, e, h⟩ := (C95_races hK hm hd).2 h
    exact hr ks s e h
  obtain ⟨w, e, hn, h⟩ := C93_any_order hK hm hd (accesses_apart hc) accesses_confined es
  refine ⟨w, e, hn, fun k => ?_⟩
  obtain ⟨n, x, hx, h1, h2⟩ := h k
  refine ⟨n, x, hx, h1, fun hi b p hp ha => h2 hi p hp ?_⟩
  cases b with
  | false => exact .inl ⟨hp, ha⟩
  | true => exact .inr ⟨hp, ha⟩

/-- And when all have finished, they have done what their programs do one after the other, in any
order. -/
theorem C95_fork_join (hK : Orderly K) (hm : ∀ k, ∀ m ∈ P.mats k, LivesIn mem.bufs.length m)
    (hd : ∀ k n, alone cfg K (P.prog k) ⟨mem, P.mats k⟩ n ≠ none)
    (hr : ∀ ks s, (Scene.start P mem).moves cfg K P ks = some s → ¬ s.Race) {es : List (Happening ι)}
    {w : Weak ι α} (e : (Weak.start P mem).run cfg K P es = some w) (hf : w.Finished P) {order : List ι}
    (hn : order.Nodup) (ha : ∀ k, k ∈ order) : AsOneByOne cfg K P mem order w := by
  have hc : ¬ Conflict cfg K P mem := fun h => by
    obtain ⟨ks, s, e, h⟩ := (C95_races hK hm hd).2 h
    exact hr ks s e h
  exact C94_fork_join hK hm hd (accesses_apart hc) accesses_confined e hf hn ha

omit [DecidableEq ι] in
/-- Of a thread that finishes alone, all accesses can be listed. -/
theorem C95_listed {k : ι} {N : Nat} {x : List (Obs α) × St α}
    (hx : alone cfg K (P.prog k) ⟨mem, P.mats k⟩ N = some x) (hp : P.prog k x.1 = none) (a : Bool × Loc) :
    Accesses cfg K P mem k a ↔ a ∈ accessesOf cfg K P mem k N := by
  constructor
  · rintro ⟨n, y, op, hy, hop, ha⟩
    have hn : n < N := by
      by_contra hn
      have := alone_final hx hp (n - N)
      rw [show N + (n - N) = n by omega, hy] at this
      cases this
      rw [hp] at hop
      cases hop
    clear hx
    induction N with
    | zero => omega
    | succ N ih =>
      rw [accessesOf, List.mem_append]
      rcases Nat.lt_succ_iff_lt_or_eq.1 hn with h | rfl
      · exact .inl (ih h)
      · right
        rw [hy]
        simp only [hop]
        exact ha
  · clear hx
    intro ha
    induction N with
    | zero => exact (List.not_mem_nil ha).elim
    | succ N ih =>
      rw [accessesOf, List.mem_append] at ha
      rcases ha with ha | ha
      · exact ih ha
      · cases hy : alone cfg K (P.prog k) ⟨mem, P.mats k⟩ N with
        | none => rw [hy] at ha; exact (List.not_mem_nil ha).elim
        | some y =>
          rw [hy] at ha
          simp only at ha
          cases hop : P.prog k y.1 with
          | none => rw [hop] at ha; exact (List.not_mem_nil ha).elim
          | some op => rw [hop] at ha; exact ⟨N, y, op, hy, hop, ha⟩

end

/-! ### Examples -/

/-- Two threads that are given the same matrix: each changes one element of a diagonal and reads the
other elements of its row. Their windows are the same, both write. -/
def exSameMatrix : Crew (Fin 2) Int :=
  ⟨fun _ => [.base ⟨⟨0, 0, 4⟩, .rowMajor ⟨(2, 2)⟩, .dynamic, .dynamic⟩],
    fun k => inTurn [.element 0 (.update k k (· + 5)), .get 0 k (1 - k), .zeros .rowMajor 1 2,
      .element 1 (.set 0 0 7), .get 0 k k]⟩

theorem exSameMatrix_alone (k : Fin 2) :
    (alone dbg (plainKernel exactKern) (exSameMatrix.prog k) ⟨⟨[[1, 2, 3, 4]]⟩, exSameMatrix.mats k⟩ 5).map
      (·.1) = some [.done, .value (match k with | 0 => 2 | 1 => 3), .done, .done,
        .value (match k with | 0 => 6 | 1 => 9)] := by
  decide +revert

theorem exSameMatrix_defined (k : Fin 2) (n : Nat) :
    alone dbg (plainKernel exactKern) (exSameMatrix.prog k) ⟨⟨[[1, 2, 3, 4]]⟩, exSameMatrix.mats k⟩ n ≠ none := by
  obtain ⟨x, hx, e⟩ := Option.map_eq_some_iff.1 (exSameMatrix_alone k)
  exact alone_defined hx (by rw [e]; rfl) n

theorem exSameMatrix_accesses (k : Fin 2) (a : Bool × Loc) :
    Accesses dbg (plainKernel exactKern) exSameMatrix ⟨[[1, 2, 3, 4]]⟩ k a ↔
      a ∈ accessesOf dbg (plainKernel exactKern) exSameMatrix ⟨[[1, 2, 3, 4]]⟩ k 5 := by
  obtain ⟨x, hx, e⟩ := Option.map_eq_some_iff.1 (exSameMatrix_alone k)
  exact C95_listed hx (by rw [e]; rfl) a

/-- They do not race, in any schedule, by `C95_races`. -/
theorem exSameMatrix_no_race (ks : List (Fin 2)) (s : Scene (Fin 2) Int)
    (h : (Scene.start exSameMatrix ⟨[[1, 2, 3, 4]]⟩).moves dbg (plainKernel exactKern) exSameMatrix ks =
      some s) : ¬ s.Race := by
  intro hr
  obtain ⟨k, l, b, p, hne, hp, h1, h2⟩ := (C95_races (C91_plainKernel exactKern).1
    (fun k m hm => by obtain rfl := List.mem_singleton.1 hm; exact Nat.zero_lt_one)
    exSameMatrix_defined).1 ⟨ks, s, h, hr⟩
  have key : ∀ k l : Fin 2, k ≠ l →
      ∀ a ∈ accessesOf dbg (plainKernel exactKern) exSameMatrix ⟨[[1, 2, 3, 4]]⟩ k 5, a.1 = true →
      a.2.buf < 1 → ∀ b : Bool,
        (b, a.2) ∉ accessesOf dbg (plainKernel exactKern) exSameMatrix ⟨[[1, 2, 3, 4]]⟩ l 5 := by
    decide
  exact key k l hne _ ((exSameMatrix_accesses k _).1 h1) rfl hp b ((exSameMatrix_accesses l _).1 h2)

/-- So they see what they see alone, whatever happens to their stores. -/
example (es : List (Happening (Fin 2))) :
    ∃ w, (Weak.start exSameMatrix ⟨[[1, 2, 3, 4]]⟩).run dbg (plainKernel exactKern) exSameMatrix es = some w ∧
      ¬ w.Race := by
  obtain ⟨w, e, h, -⟩ := C95_any_order (C91_plainKernel exactKern).1
    (fun k m hm => by obtain rfl := List.mem_singleton.1 hm; exact Nat.zero_lt_one)
    exSameMatrix_defined exSameMatrix_no_race es
  exact ⟨w, e, h⟩

/-- `C95_free_of_races` for them. -/
example (ks : List (Fin 2)) : ∃ s, (Scene.start exSameMatrix ⟨[[1, 2, 3, 4]]⟩).moves dbg
    (plainKernel exactKern) exSameMatrix ks = some s := by
  obtain ⟨s, e, -⟩ := C95_free_of_races (C91_plainKernel exactKern).1
    (fun k m hm => by obtain rfl := List.mem_singleton.1 hm; exact Nat.zero_lt_one)
    exSameMatrix_defined exSameMatrix_no_race ks
  exact ⟨s, e⟩

/-- `C95_fork_join` for them. -/
example (es : List (Happening (Fin 2))) (w : Weak (Fin 2) Int)
    (e : (Weak.start exSameMatrix ⟨[[1, 2, 3, 4]]⟩).run dbg (plainKernel exactKern) exSameMatrix es = some w)
    (hf : w.Finished exSameMatrix) :
    AsOneByOne dbg (plainKernel exactKern) exSameMatrix ⟨[[1, 2, 3, 4]]⟩ [1, 0] w :=
  C95_fork_join (C91_plainKernel exactKern).1
    (fun k m hm => by obtain rfl := List.mem_singleton.1 hm; exact Nat.zero_lt_one)
    exSameMatrix_defined exSameMatrix_no_race e hf (by decide) (by decide)

/-- The two threads of store buffering race, and `C95_weak_races` finds it by looking at each thread
alone. -/
example : ∃ es w, (Weak.start exBuffering ⟨[[0, 0]]⟩).run dbg (plainKernel exactKern) exBuffering es = some w ∧
    w.Race := by
  have al : ∀ k : Fin 2, (alone dbg (plainKernel exactKern) (exBuffering.prog k)
      ⟨⟨[[0, 0]]⟩, exBuffering.mats k⟩ 2).map (·.1) = some [.done, .value 0] := by decide
  refine (C95_weak_races (C91_plainKernel exactKern).1
    (fun k m hm => by obtain rfl := List.mem_singleton.1 hm; exact Nat.zero_lt_one) fun k n => ?_).2
    ⟨0, 1, false, ⟨0, 0⟩, by decide, by decide, ?_, ?_⟩
  · obtain ⟨x, hx, e⟩ := Option.map_eq_some_iff.1 (al k)
    exact alone_defined hx (by rw [e]; rfl) n
  · obtain ⟨x, hx, e⟩ := Option.map_eq_some_iff.1 (al 0)
    exact (C95_listed hx (by rw [e]; rfl) _).2 (by decide)
  · obtain ⟨x, hx, e⟩ := Option.map_eq_some_iff.1 (al 1)
    exact (C95_listed hx (by rw [e]; rfl) _).2 (by decide)

end Householder.Props
