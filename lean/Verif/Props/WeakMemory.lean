import Verif.Lemmas.WeakMemory
import Verif.Props.Interleave

/-!
# C93: threads that see each other's stores late, in any order, or early

`C91` lets the threads share one memory, in which a store is seen by all of them at once. Compilers and
machines promise less (`Spec/WeakMemory.lean`). The theorems hold nevertheless: where matrices are not
shared, or only read, the library needs no fences, no atomic accesses and no locks.
-/

namespace Householder.Props

open Spec Steps

variable {ι α : Type}

section

variable [Target] [Zero α] [One α] [Add α] [Mul α]

variable {cfg : Cfg} {K : GemmArgs α → Steps α Unit} {P : Crew ι α} {mem : Mem α}
  {R W : ι → Loc → Prop} [DecidableEq ι]

/-- **C93**: threads that each, alone, have defined behaviour and stay in their zones have defined
behaviour whatever happens, and no two of their accesses conflict. Each observes what it observes
alone, and between its operations it finds in its zones what it finds there alone. -/
theorem C93_any_order (hK : Orderly K) (hm : ∀ k, ∀ m ∈ P.mats k, LivesIn mem.bufs.length m)
    (hd : ∀ k n, alone cfg K (P.prog k) ⟨mem, P.mats k⟩ n ≠ none)
    (hA : ZonesApart R W) (hC : Confined cfg K P mem R W) (es : List (Happening ι)) :
    ∃ w, (Weak.start P mem).run cfg K P es = some w ∧ ¬ w.Race ∧
      ∀ k, ∃ n x, alone cfg K (P.prog k) ⟨mem, P.mats k⟩ n = some x ∧ (w.task k).seen = x.1 ∧
        ((w.task k).cur = none → ∀ p : Loc, p.buf < mem.bufs.length → R k p ∨ W k p →
          (w.view k).get? p = x.2.mem.get? p) := by
  obtain ⟨w, ρ, e, h⟩ := (Spread.start (cfg := cfg) (K := K) (R := R) (W := W) hm).run hK hA hC hd es
  refine ⟨w, e, h.no_race hA, fun k => ?_⟩
  obtain ⟨n, x, mem', hf⟩ := h.follow k
  refine ⟨n, x, hf.reached, hf.seen, fun hc p hp hs => ?_⟩
  rw [← hf.idle hc]
  exact hf.agree p.buf p.buf p.idx (hf.same _ hp) (.inr hs)

/-- **C93** for zones in which the threads work element by element. -/
theorem C93_zones (hK : Orderly K) (hm : ∀ k, ∀ m ∈ P.mats k, LivesIn mem.bufs.length m)
    (hd : ∀ k n, alone cfg K (P.prog k) ⟨mem, P.mats k⟩ n ≠ none)
    (hA : ZonesApart R W)
    (hz : ∀ k, ∀ m ∈ P.mats k, InZone mem.bufs.length (R k) mem m.layout.dim m)
    (ho : ∀ k n x op, alone cfg K (P.prog k) ⟨mem, P.mats k⟩ n = some x → P.prog k x.1 = some op →
      op.Minds mem.bufs.length (R k) (W k) mem x.2.mats) (es : List (Happening ι)) :
    WeaklyAsAlone cfg K P mem es :=
  (zoned_zones hm hd hA hz ho).weak hK es

/-- **C93** for zones that contain the windows of the matrices: reading is free, what is written to
must be in the second zone. -/
theorem C93_windows (hK : Orderly K) (hm : ∀ k, ∀ m ∈ P.mats k, LivesIn mem.bufs.length m)
    (hd : ∀ k n, alone cfg K (P.prog k) ⟨mem, P.mats k⟩ n ≠ none)
    (hA : ZonesApart R W) (hr : ∀ k, ∀ m ∈ P.mats k, ∀ q, Covers m q → R k q)
    (hw : ∀ k n x op, alone cfg K (P.prog k) ⟨mem, P.mats k⟩ n = some x → P.prog k x.1 = some op →
      ∀ (h : Nat) b, op.writesTo = some h → x.2.mats[h]? = some (.base b) →
        ∀ q, inWindow q b → mem.bufs.length ≤ q.buf ∨ W k q) (es : List (Happening ι)) :
    WeaklyAsAlone cfg K P mem es :=
  (zoned_windows hm hd hA hr hw).weak hK es

/-- Threads whose matrices have no element of a window in common may do with them what they like. -/
theorem C93_own_windows (hK : Orderly K) (hm : ∀ k, ∀ m ∈ P.mats k, LivesIn mem.bufs.length m)
    (hd : ∀ k n, alone cfg K (P.prog k) ⟨mem, P.mats k⟩ n ≠ none)
    (hw : ∀ k l, k ≠ l → ∀ m ∈ P.mats k, ∀ m' ∈ P.mats l, ∀ q, Covers m q → ¬ Covers m' q)
    (es : List (Happening ι)) : WeaklyAsAlone cfg K P mem es :=
  (zoned_own_windows hm hd hw).weak hK es

/-- Threads that share matrices, and each write only to matrices they have made themselves. -/
theorem C93_readers (hK : Orderly K) (hm : ∀ k, ∀ m ∈ P.mats k, LivesIn mem.bufs.length m)
    (hd : ∀ k n, alone cfg K (P.prog k) ⟨mem, P.mats k⟩ n ≠ none)
    (hw : ∀ k n x op, alone cfg K (P.prog k) ⟨mem, P.mats k⟩ n = some x → P.prog k x.1 = some op →
      ∀ (h : Nat) b, op.writesTo = some h → x.2.mats[h]? = some (.base b) →
        mem.bufs.length ≤ b.data.buf) (es : List (Happening ι)) : WeaklyAsAlone cfg K P mem es :=
  (zoned_readers hm hd hw).weak hK es

omit [DecidableEq ι] in
/-- Threads that use the elements of the four parts of a split, in whatever functions work element by
element, and do anything with matrices that they make themselves. -/
theorem C93_split (hK : Orderly K) {m : BaseMatrix} (h : Sound m mem) {rows cols : Nat}
    (hl : m.layout = .rowMajor ⟨(rows, cols)⟩) {s : Nat × Nat} (h1 : 0 < s.1) (h2 : s.1 < rows)
    (h3 : 0 < s.2) (h4 : s.2 < cols) (hb : m.data.buf < mem.bufs.length)
    (prog : Fin 4 → List (Obs α) → Option (Op α)) :
    ∃ q, m.split_in_four_mut cfg s = .ok q ∧
      ((∀ k n, alone cfg K (prog k) ⟨mem, [.base (quad q k)]⟩ n ≠ none) →
        (∀ k n x op, alone cfg K (prog k) ⟨mem, [.base (quad q k)]⟩ n = some x → prog k x.1 = some op →
          ∀ h ∈ op.whole, ∀ b, x.2.mats[h]? = some (.base b) → mem.bufs.length ≤ b.data.buf) →
        ∀ es, WeaklyAsAlone cfg K ⟨fun k => [.base (quad q k)], prog⟩ mem es) := by
  obtain ⟨q, e, hz⟩ := zoned_split (cfg := cfg) (K := K) h hl h1 h2 h3 h4 hb prog
  exact ⟨q, e, fun hd ho => (hz hd ho).weak hK⟩

/-- When a thread has finished, what it has observed and what its values show in its view is what it has
observed and what they show when the threads take turns in one memory. So whoever waits for the thread
to finish, and thereby sees what the thread sees, cannot tell the difference. -/
theorem C93_agrees {es : List (Happening ι)} {ks : List ι} (h : WeaklyAsAlone cfg K P mem es)
    (h' : RunsAsAlone cfg K P mem ks) {w : Weak ι α} {s : Scene ι α}
    (e : (Weak.start P mem).run cfg K P es = some w)
    (e' : (Scene.start P mem).moves cfg K P ks = some s) (k : ι)
    (hf : (w.task k).cur = none ∧ P.prog k (w.task k).seen = none)
    (hf' : (s.task k).cur = none ∧ P.prog k (s.task k).seen = none) :
    (w.task k).seen = (s.task k).seen ∧
      SameElements cfg (w.task k).mats (w.view k) (s.task k).mats s.mem := by
  obtain ⟨_, e1, -, h⟩ := h
  obtain ⟨_, e2, -, h'⟩ := h'
  rw [e] at e1
  rw [e'] at e2
  cases e1
  cases e2
  obtain ⟨n, x, hx, h1, h2⟩ := h k
  obtain ⟨n', x', hx', h1', h2'⟩ := h' k
  have a := alone_final hx (h1 ▸ hf.2) n'
  have b := alone_final hx' (h1' ▸ hf'.2) n
  rw [Nat.add_comm, a] at b
  cases b
  refine ⟨h1.trans h1'.symm, ?_⟩
  have key : ∀ {a b c : List (Mat α)}, SameElements cfg a (w.view k) c x.2.mem →
      SameElements cfg b s.mem c x.2.mem → SameElements cfg a (w.view k) b s.mem := by
    intro a b c ha hb
    induction ha generalizing b with
    | nil => cases hb; exact .nil
    | cons u _ ih => cases hb with
      | cons v w =>
        exact .cons ⟨u.1.trans v.1.symm, fun r c => (u.2.1 r c).trans (v.2.1 r c).symm,
          fun k => (u.2.2 k).trans (v.2.2 k).symm⟩ (ih w)
  exact key (h2 hf.1) (h2' hf'.1)

/-- Nothing is lost by the weaker promise: what happens when threads take turns in one memory can also
happen here; all threads that take part, and any others of a finite number, see that memory. -/
theorem C93_includes {all ks : List ι} {s : Scene ι α}
    (h : (Scene.start P mem).moves cfg K P ks = some s) :
    ∃ es w, (Weak.start P mem).run cfg K P es = some w ∧ w.task = s.task ∧
      ∀ k ∈ all ++ ks, w.view k = s.mem := by
  obtain ⟨es, w, e, ht, hv⟩ := weak_moves (all := (all ++ ks).dedup) (List.nodup_dedup _)
    (fun k hk => List.mem_dedup.2 (List.mem_append_right _ hk)) h (w := Weak.start P mem) rfl fun _ _ => rfl
  exact ⟨es, w, e, ht, fun k hk => hv k (List.mem_dedup.2 hk)⟩

end

/-! ### Examples -/

/-- The hypotheses of `C93_own_windows` hold of the two threads that use slices and products of
matrices in the two halves of one allocation. -/
theorem exHalves_weak (es : List (Happening (Fin 2))) :
    WeaklyAsAlone dbg (plainKernel exactKern) exHalves exMem8 es := by
  refine C93_own_windows (C91_plainKernel exactKern).1 ?_ ?_ ?_ es
  · intro k m hm
    obtain rfl := List.mem_singleton.1 hm
    exact Nat.zero_lt_one
  · intro k n
    obtain ⟨x, hx, e⟩ := Option.map_eq_some_iff.1 (exHalves_alone k)
    exact alone_defined hx (by rw [e]; rfl) n
  · intro k l hne m hm m' hm' q hq hq'
    obtain rfl := List.mem_singleton.1 hm
    obtain rfl := List.mem_singleton.1 hm'
    obtain ⟨-, h1, h2⟩ := hq
    obtain ⟨-, h3, h4⟩ := hq'
    have : k.val ≠ l.val := fun e => hne (Fin.ext e)
    simp only at h1 h2 h3 h4
    omega

/-- The hypotheses of `C93_readers` hold of the two threads that share a matrix. -/
example (es : List (Happening (Fin 2))) :
    WeaklyAsAlone dbg (plainKernel exactKern) exShared exMem8 es := by
  have fin : ∀ k, ∃ x, alone dbg (plainKernel exactKern) (exShared.prog k) ⟨exMem8, exShared.mats k⟩ 5 =
      some x ∧ exShared.prog k x.1 = none := by
    intro k
    obtain ⟨x, hx, e⟩ := Option.map_eq_some_iff.1 (exShared_alone k)
    exact ⟨x, hx, by rw [e]; rfl⟩
  refine C93_readers (C91_plainKernel exactKern).1 ?_ (fun k n => ?_) (fun k n x op hx hop h b hw hb => ?_) es
  · intro k m hm
    obtain rfl := List.mem_singleton.1 hm
    exact Nat.zero_lt_one
  · obtain ⟨x, hx, hp⟩ := fin k
    exact alone_defined hx hp n
  · obtain ⟨y, hy, hp⟩ := fin k
    have hc : ∀ k : Fin 2, ∀ j < 5, ((alone dbg (plainKernel exactKern) (exShared.prog k)
        ⟨exMem8, exShared.mats k⟩ j).elim true fun y => (exShared.prog k y.1).elim true
          fun op => op.writesTo.elim true (newAt y.2)) = true := by decide
    have := along_alone (fun s op => op.writesTo.elim true (newAt s)) 5 hy hp (hc k) n x op hx hop
    rw [hw, Option.elim_some] at this
    exact newAt_spec this hb

/-- The hypotheses of `C93_split` hold of the four threads that evaluate, square and change their part
of a split. -/
example (es : List (Happening (Fin 4))) :
    WeaklyAsAlone dbg (plainKernel exactKern) ⟨fun k => [.base (quad exQuarters k)], exWork⟩ exMem4 es := by
  obtain ⟨q, e, h⟩ := C93_split (cfg := dbg) (C91_plainKernel exactKern).1 exFour_sound
    (rows := 4) (cols := 4) rfl (s := (2, 2)) (by decide) (by decide) (by decide) (by decide) (by decide)
    exWork
  obtain rfl : exQuarters = q := by
    have : exFour.split_in_four_mut dbg (2, 2) = .ok exQuarters := rfl
    rw [this] at e
    cases e
    rfl
  have fin : ∀ k, ∃ x, alone dbg (plainKernel exactKern) (exWork k) ⟨exMem4, [.base (quad exQuarters k)]⟩ 6 =
      some x ∧ exWork k x.1 = none := by
    intro k
    have := exWork_alone k
    obtain ⟨x, hx, e⟩ := Option.map_eq_some_iff.1 this
    exact ⟨x, hx, by rw [e]; rfl⟩
  refine h (fun k n => ?_) (fun k n x op hx hop j hj b hb => ?_) es
  · obtain ⟨x, hx, hp⟩ := fin k
    exact alone_defined hx hp n
  · obtain ⟨y, hy, hp⟩ := fin k
    have hc : ∀ k : Fin 4, ∀ j < 6, ((alone dbg (plainKernel exactKern) (exWork k)
        ⟨exMem4, [.base (quad exQuarters k)]⟩ j).elim true fun y => (exWork k y.1).elim true
          fun op => op.whole.all (newAt y.2)) = true := by decide
    have := along_alone (fun s op => op.whole.all (newAt s)) 6 hy hp (hc k) n x op hx hop
    exact newAt_spec (List.all_eq_true.1 this j hj) hb

/-- `C93_agrees` for the two halves: what they have observed when they have finished does not depend on
how they ran. -/
example (es : List (Happening (Fin 2))) (ks : List (Fin 2)) (w : Weak (Fin 2) Int) (s : Scene (Fin 2) Int)
    (e : (Weak.start exHalves exMem8).run dbg (plainKernel exactKern) exHalves es = some w)
    (e' : (Scene.start exHalves exMem8).moves dbg (plainKernel exactKern) exHalves ks = some s)
    (hf : (w.task 1).cur = none ∧ exHalves.prog 1 (w.task 1).seen = none)
    (hf' : (s.task 1).cur = none ∧ exHalves.prog 1 (s.task 1).seen = none) :
    (w.task 1).seen = (s.task 1).seen :=
  (C93_agrees (exHalves_weak es) (exHalves_run ks) e e' 1 hf hf').1

/-- `C93_includes` for them. -/
example (ks : List (Fin 2)) : ∃ s es w,
    (Scene.start exHalves exMem8).moves dbg (plainKernel exactKern) exHalves ks = some s ∧
    (Weak.start exHalves exMem8).run dbg (plainKernel exactKern) exHalves es = some w ∧ w.task = s.task := by
  obtain ⟨s, h, -⟩ := exHalves_run ks
  obtain ⟨es, w, e, ht, -⟩ := C93_includes (all := [0, 1]) h
  exact ⟨s, es, w, h, e, ht⟩

set_option synthInstance.maxSize 1000 in
/-- One thing that can happen with the two halves: the first thread's stores of its first sixty moves
are announced, the second takes turns with it, and in every round two stores reach each, the latest
first. The views differ in the end, and each thread has observed what it observes alone. -/
example : ((Weak.start exHalves exMem8).run dbg (plainKernel exactKern) exHalves
    (.early 0 60 :: ((List.range 70).map fun i => [.move 0, .move 1, .arrive 1 (20 - i), .arrive 0 (30 - i),
      .arrive 1 (2 * i)]).flatten)).map (fun w => ((w.view 0).get? ⟨0, 1⟩, (w.view 1).get? ⟨0, 5⟩,
        (w.task 0).seen, (w.task 1).seen, decide ((w.view 0).bufs = (w.view 1).bufs))) =
      some (some 302, some 18, [.done, .done, .done, .value 302], [.done, .done, .done, .value 18], false) := by
  decide +kernel

/-- The model does allow what is forbidden when threads take turns in one memory. Each of two threads
sets the element named first and then looks at the other (store buffering): both may see the old
value. No schedule of turns gives this, since one of the stores would come first. -/
def exBuffering : Crew (Fin 2) Int :=
  ⟨fun _ => [.base ⟨⟨0, 0, 2⟩, .columnVector ⟨2⟩, .dynamic, .dynamic⟩],
    fun k => inTurn [.element 0 (.set1d k 1), .get1d 0 (1 - k)]⟩

example : ((Weak.start exBuffering ⟨[[0, 0]]⟩).run dbg (plainKernel exactKern) exBuffering
    [.move 0, .move 0, .move 0, .move 1, .move 1, .move 1, .move 0, .move 0, .move 0, .move 1, .move 1,
      .move 1]).map (fun w => ((w.task 0).seen, (w.task 1).seen)) =
    some ([.done, .value 0], [.done, .value 0]) := by
  decide +kernel

/-- Each thread looks at one element and then sets the other (load buffering): each may see what the
other stores afterwards. -/
example :
    let P : Crew (Fin 2) Int := ⟨fun _ => [.base ⟨⟨0, 0, 2⟩, .columnVector ⟨2⟩, .dynamic, .dynamic⟩],
      fun k => inTurn [.get1d 0 (1 - k), .element 0 (.set1d k 1)]⟩
    ((Weak.start P ⟨[[0, 0]]⟩).run dbg (plainKernel exactKern) P
      [.early 0 5, .arrive 1 0, .move 1, .move 1, .move 1, .move 1, .move 1, .arrive 0 1,
        .move 0, .move 0, .move 0, .move 0, .move 0]).map
      (fun w => ((w.task 0).seen, (w.task 1).seen)) = some ([.value 1], [.value 1]) := by
  decide +kernel

/-- One thread sets two elements; the other may see the second new and then the first still old. -/
example :
    let P : Crew (Fin 2) Int := ⟨fun _ => [.base ⟨⟨0, 0, 2⟩, .columnVector ⟨2⟩, .dynamic, .dynamic⟩],
      fun k => if k = 0 then inTurn [.element 0 (.set1d 0 1), .element 0 (.set1d 1 1)]
        else inTurn [.get1d 0 1, .get1d 0 0]⟩
    ((Weak.start P ⟨[[0, 0]]⟩).run dbg (plainKernel exactKern) P
      ([.move 0, .move 0, .move 0, .move 0, .move 0, .move 0] ++ [.arrive 1 1] ++
        List.replicate 6 (.move 1))).map (fun w => (w.task 1).seen) = some [.value 1, .value 0] := by
  decide +kernel

end Householder.Props
