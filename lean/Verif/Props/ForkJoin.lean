import Verif.Lemmas.ForkJoin
import Verif.Props.WeakMemory

/-!
# C94: starting threads and waiting for them is running their programs one after the other

The common use of `split_in_four_mut` from several threads: the parts are given to threads, one waits
until they have finished, and goes on with the whole matrix.
-/

namespace Householder.Props

open Spec Steps

variable {ι α : Type}

section

variable [DecidableEq ι] [Target] [Zero α] [One α] [Add α] [Mul α]

variable {cfg : Cfg} {K : GemmArgs α → Steps α Unit} {P : Crew ι α} {mem : Mem α}
  {R W : ι → Loc → Prop}

/-- **C94**: threads that stay in their zones, whatever the order in which their stores reach each
other: when all have finished, each has observed what it observes when the programs run one after the
other, in any order, and whoever has waited for them sees the memory that this leaves. -/
theorem C94_fork_join (hK : Orderly K) (hm : ∀ k, ∀ m ∈ P.mats k, LivesIn mem.bufs.length m)
    (hd : ∀ k n, alone cfg K (P.prog k) ⟨mem, P.mats k⟩ n ≠ none)
    (hA : ZonesApart R W) (hC : Confined cfg K P mem R W) {es : List (Happening ι)} {w : Weak ι α}
    (e : (Weak.start P mem).run cfg K P es = some w) (hf : w.Finished P) {order : List ι}
    (hn : order.Nodup) (ha : ∀ k, k ∈ order) : AsOneByOne cfg K P mem order w := by
  obtain ⟨w', ρ, e', h, hcalm⟩ := (Spread.start (cfg := cfg) (K := K) (R := R) (W := W) hm).run_calm hK hA hC
    hd (fun _ _ _ _ _ => rfl) es
  rw [e] at e'
  cases e'
  -- places that nobody writes to may be read by all
  have hA' : ZonesApart (fun l p => R l p ∨ ∀ k, ¬ W k p) W := fun k l p hne hw =>
    ⟨fun hr => hr.elim (hA k l p hne hw).1 fun h => h k hw, (hA k l p hne hw).2⟩
  have hC' : Confined cfg K P mem (fun l p => R l p ∨ ∀ k, ¬ W k p) W := fun k n x op hx hop =>
    (hC k n x op hx hop).imp (fun _ h => .inr (.inl h)) fun _ => .inr
  have fin : ∀ k, ∃ n x, alone cfg K (P.prog k) ⟨mem, P.mats k⟩ n = some x ∧ P.prog k x.1 = none ∧
      (w.task k).seen = x.1 ∧ ∀ p : Loc, p.buf < mem.bufs.length → R k p ∨ W k p →
        (w.view k).get? p = x.2.mem.get? p := by
    intro k
    obtain ⟨n, x, mem', hfo⟩ := h.follow k
    refine ⟨n, x, hfo.reached, hfo.seen ▸ (hf k).2, hfo.seen, fun p hp hs => ?_⟩
    rw [← hfo.idle (hf k).1]
    exact hfo.agree p.buf p.buf p.idx (hfo.same _ hp) (.inr hs)
  have H : ∀ ks, ∃ s, (Scene.start P mem).moves cfg K P ks = some s ∧
      Follows cfg K P mem (fun l p => R l p ∨ ∀ k, ¬ W k p) W s := fun ks => by
    obtain ⟨s, e, -, h⟩ := C91_any_schedule hK hm hd hA' hC' ks
    exact ⟨s, e, h⟩
  obtain ⟨rest, s, es, ho, hfin, -⟩ := one_by_one H
    (fun k => by obtain ⟨n, x, h1, h2, -⟩ := fin k; exact ⟨n, x, h1, h2⟩) order hn (past := []) rfl
    fun _ _ => rfl
  have hs : Follows cfg K P mem (fun l p => R l p ∨ ∀ k, ¬ W k p) W s := by
    obtain ⟨s', e', h'⟩ := H rest
    rw [es] at e'
    cases e'
    exact h'
  -- at the end both have done what the thread does alone
  have both : ∀ k, (w.task k).seen = (s.task k).seen ∧ ∀ p : Loc, p.buf < mem.bufs.length →
      R k p ∨ W k p → (w.view k).get? p = s.mem.get? p := by
    intro k
    obtain ⟨n, x, hx, hp, h1, h2⟩ := fin k
    obtain ⟨n', x', hx', h1', h2'⟩ := hs k
    have hp' : P.prog k x'.1 = none := h1' ▸ (hfin k (ha k)).2
    have a := alone_final hx hp n'
    have b := alone_final hx' hp' n
    rw [Nat.add_comm, a] at b
    cases b
    exact ⟨h1.trans h1'.symm, fun p hp hz => (h2 p hp hz).trans
      (h2' (hfin k (ha k)).1 p hp (hz.imp_left .inl)).symm⟩
  refine ⟨s.mem, ?_, fun p hp => ⟨fun k hk => ?_, fun hno => ?_⟩⟩
  · rw [show (order.map fun k => (w.task k).seen) = order.map fun k => (s.task k).seen from
      List.map_congr_left fun k _ => (both k).1]
    exact ho
  · exact ((both k).2 p hp (.inr (((h.past _ hk).2 hp).2 rfl))).symm
  · by_cases hw : ∃ k, W k p
    · obtain ⟨k, hw⟩ := hw
      rw [← (both k).2 p hp (.inr hw)]
      exact hcalm k p hp hw (hno k)
    · have hw' : ∀ k, ¬ W k p := fun k hk => hw ⟨k, hk⟩
      cases order with
      | nil =>
        have hm : s.mem = (Scene.start P mem).mem := by
          generalize hs' : (Scene.start P mem).mem = m at ho
          cases ho
          rfl
        rw [hm]
        rfl
      | cons k _ =>
        obtain ⟨n', x', hx', -, h2'⟩ := hs k
        rw [h2' (hfin k (ha k)).1 p hp (.inl (.inr hw'))]
        exact (alone_unwritten hC hx').2 p hp (hw' k)

omit [DecidableEq ι] [Target] [Zero α] [One α] [Add α] [Mul α] in
/-- Whoever has waited for the threads sees one memory: two that meet the description agree. -/
theorem C94_join_unique {w : Weak ι α} {J J' : Mem α} (h : w.Joined mem J) (h' : w.Joined mem J') {p : Loc}
    (hp : p.buf < mem.bufs.length) : J.get? p = J'.get? p := by
  by_cases hk : ∃ k, (k, true, p) ∈ w.past
  · obtain ⟨k, hk⟩ := hk
    rw [(h p hp).1 k hk, (h' p hp).1 k hk]
  · have hk' : ∀ k, (k, true, p) ∉ w.past := fun k h => hk ⟨k, h⟩
    rw [(h p hp).2 hk', (h' p hp).2 hk']

/-- No thread waits for another: from wherever the threads have come, if each finishes alone, they all
finish if they are let, without anything else having to happen. -/
theorem C94_finishes (hK : Orderly K) (hm : ∀ k, ∀ m ∈ P.mats k, LivesIn mem.bufs.length m)
    (hf : ∀ k, ∃ n x, alone cfg K (P.prog k) ⟨mem, P.mats k⟩ n = some x ∧ P.prog k x.1 = none)
    (hA : ZonesApart R W) (hC : Confined cfg K P mem R W) {order : List ι} (ha : ∀ k, k ∈ order)
    (es : List (Happening ι)) :
    ∃ (ms : List ι) (w : Weak ι α),
      (Weak.start P mem).run cfg K P (es ++ ms.map .move) = some w ∧ w.Finished P := by
  have hd : ∀ k n, alone cfg K (P.prog k) ⟨mem, P.mats k⟩ n ≠ none := fun k n => by
    obtain ⟨N, x, hx, hp⟩ := hf k
    exact alone_defined hx hp n
  obtain ⟨w, ρ, e, h⟩ := (Spread.start (cfg := cfg) (K := K) (R := R) (W := W) hm).run hK hA hC hd es
  obtain ⟨ms, w', e', hall, -⟩ := h.finish_all hK hC hd hf order
  exact ⟨ms, w', by rw [weak_run_append, e, Option.bind_some, e'], fun k => hall k (ha k)⟩

omit [DecidableEq ι] in
/-- Threads in their zones stay in them. -/
theorem zoned_confined (hK : Orderly K) (h : Zoned cfg K P mem) :
    ∃ R W : ι → Loc → Prop, (∀ k, ∀ m ∈ P.mats k, LivesIn mem.bufs.length m) ∧
      (∀ k n, alone cfg K (P.prog k) ⟨mem, P.mats k⟩ n ≠ none) ∧ ZonesApart R W ∧
      Confined cfg K P mem R W := by
  obtain ⟨R, W, mem0, hm, hd, hA, hz, ho⟩ := h
  refine ⟨R, W, hm, hd, hA, fun k n x op hx hop => ?_⟩
  obtain ⟨hl, hk⟩ := alone_kept (cfg := cfg) hK (hz k) (ho k) n hx
  obtain ⟨h1, h2⟩ := ho k n x op hx hop hk
  exact (op_keeps cfg hK hk op h1 h2).stays hl

theorem zoned_fork_join (hK : Orderly K) (h : Zoned cfg K P mem) {es : List (Happening ι)} {w : Weak ι α}
    (e : (Weak.start P mem).run cfg K P es = some w) (hf : w.Finished P) {order : List ι}
    (hn : order.Nodup) (ha : ∀ k, k ∈ order) : AsOneByOne cfg K P mem order w := by
  obtain ⟨R, W, hm, hd, hA, hC⟩ := zoned_confined hK h
  exact C94_fork_join hK hm hd hA hC e hf hn ha

/-- **C94** for threads whose matrices have no element of a window in common. -/
theorem C94_own_windows (hK : Orderly K) (hm : ∀ k, ∀ m ∈ P.mats k, LivesIn mem.bufs.length m)
    (hd : ∀ k n, alone cfg K (P.prog k) ⟨mem, P.mats k⟩ n ≠ none)
    (hw : ∀ k l, k ≠ l → ∀ m ∈ P.mats k, ∀ m' ∈ P.mats l, ∀ q, Covers m q → ¬ Covers m' q)
    {es : List (Happening ι)} {w : Weak ι α} (e : (Weak.start P mem).run cfg K P es = some w)
    (hf : w.Finished P) {order : List ι} (hn : order.Nodup) (ha : ∀ k, k ∈ order) :
    AsOneByOne cfg K P mem order w :=
  zoned_fork_join hK (zoned_own_windows hm hd hw) e hf hn ha

/-- **C94** for threads that share matrices, and each write only to matrices they have made
themselves. -/
theorem C94_readers (hK : Orderly K) (hm : ∀ k, ∀ m ∈ P.mats k, LivesIn mem.bufs.length m)
    (hd : ∀ k n, alone cfg K (P.prog k) ⟨mem, P.mats k⟩ n ≠ none)
    (hw : ∀ k n x op, alone cfg K (P.prog k) ⟨mem, P.mats k⟩ n = some x → P.prog k x.1 = some op →
      ∀ (h : Nat) b, op.writesTo = some h → x.2.mats[h]? = some (.base b) →
        mem.bufs.length ≤ b.data.buf)
    {es : List (Happening ι)} {w : Weak ι α} (e : (Weak.start P mem).run cfg K P es = some w)
    (hf : w.Finished P) {order : List ι} (hn : order.Nodup) (ha : ∀ k, k ∈ order) :
    AsOneByOne cfg K P mem order w :=
  zoned_fork_join hK (zoned_readers hm hd hw) e hf hn ha

omit [DecidableEq ι] in
/-- **C94** for the parts of a split: four threads use the elements of their parts and do anything with
matrices they make themselves. However they run, when they have finished, the whole matrix shows what
it shows when the four programs run one after the other, in any order. -/
theorem C94_split (hK : Orderly K) {m : BaseMatrix} (h : Sound m mem) {rows cols : Nat}
    (hl : m.layout = .rowMajor ⟨(rows, cols)⟩) {s : Nat × Nat} (h1 : 0 < s.1) (h2 : s.1 < rows)
    (h3 : 0 < s.2) (h4 : s.2 < cols) (hb : m.data.buf < mem.bufs.length)
    (prog : Fin 4 → List (Obs α) → Option (Op α)) :
    ∃ q, m.split_in_four_mut cfg s = .ok q ∧
      ((∀ k n, alone cfg K (prog k) ⟨mem, [.base (quad q k)]⟩ n ≠ none) →
        (∀ k n x op, alone cfg K (prog k) ⟨mem, [.base (quad q k)]⟩ n = some x → prog k x.1 = some op →
          ∀ h ∈ op.whole, ∀ b, x.2.mats[h]? = some (.base b) → mem.bufs.length ≤ b.data.buf) →
        ∀ es w, (Weak.start ⟨fun k => [.base (quad q k)], prog⟩ mem).run cfg K
            ⟨fun k => [.base (quad q k)], prog⟩ es = some w →
          w.Finished ⟨fun k => [.base (quad q k)], prog⟩ →
          ∀ order : List (Fin 4), order.Nodup → (∀ k, k ∈ order) →
            AsOneByOne cfg K ⟨fun k => [.base (quad q k)], prog⟩ mem order w) := by
  obtain ⟨q, e, hz⟩ := zoned_split (cfg := cfg) (K := K) h hl h1 h2 h3 h4 hb prog
  exact ⟨q, e, fun hd ho es w e hf order hn ha => zoned_fork_join hK (hz hd ho) e hf hn ha⟩

end

/-! ### Examples -/

/-- The two threads that use slices and products of matrices in the two halves of one allocation stay
in their zones. -/
theorem exHalves_zoned : Zoned dbg (plainKernel exactKern) exHalves exMem8 := by
  refine zoned_own_windows ?_ ?_ ?_
  · intro k m hm
    obtain rfl := List.mem_singleton.1 hm
    exact Nat.zero_lt_one
  · intro k n
    obtain ⟨x, hx, e⟩ := Option.map_eq_some_iff.1 (exHalves_alone k)
    exact alone_defined hx (by rw [e]; rfl) n
  · intro k l hne m hm m' hm' q hq hq'
    obtain rfl := List.mem_singleton.1 hm
    obtain rfl := List.mem_singleton.1 hm'
    obtain ⟨-, h1, h2⟩ := hq
    obtain ⟨-, h3, h4⟩ := hq'
    have : k.val ≠ l.val := fun e => hne (Fin.ext e)
    simp only at h1 h2 h3 h4
    omega

/-- The threads take turns, the stores of the first are announced at the beginning, and stores reach the
other thread the latest first. -/
def exHappenings : List (Happening (Fin 2)) :=
  .early 0 60 :: ((List.range 70).map fun i => [.move 0, .move 1, .arrive 1 (20 - i), .arrive 0 (30 - i),
    .arrive 1 (2 * i)]).flatten

/-- Both have finished, and whoever has waited for them sees what is there after the second thread's
program has run, and then the first's. -/
example : ∃ w, (Weak.start exHalves exMem8).run dbg (plainKernel exactKern) exHalves exHappenings = some w ∧
    w.Finished exHalves ∧ AsOneByOne dbg (plainKernel exactKern) exHalves exMem8 [1, 0] w := by
  have key : ((Weak.start exHalves exMem8).run dbg (plainKernel exactKern) exHalves exHappenings).map
      (fun w => ((w.task 0).cur.isNone, (exHalves.prog 0 (w.task 0).seen).isNone, (w.task 1).cur.isNone,
        (exHalves.prog 1 (w.task 1).seen).isNone)) = some (true, true, true, true) := by
    decide +kernel
  obtain ⟨w, e, h⟩ := Option.map_eq_some_iff.1 key
  simp only [Prod.mk.injEq, Option.isNone_iff_eq_none] at h
  obtain ⟨h1, h2, h3, h4⟩ := h
  have hf : w.Finished exHalves := fun k => match k with
    | 0 => ⟨h1, h2⟩
    | 1 => ⟨h3, h4⟩
  exact ⟨w, e, hf, zoned_fork_join (C91_plainKernel exactKern).1 exHalves_zoned e hf (by decide) (by decide)⟩

/-- The memory that the programs leave, one after the other: in the other order it is the same. -/
example : ∃ J seen, OneByOne dbg (plainKernel exactKern) exHalves [1, 0] exMem8 seen J ∧
    seen = [[.done, .done, .done, .value 18], [.done, .done, .done, .value 302]] ∧
    J.bufs[0]? = some [209, 302, 441, 642, 16, 18, 7, 4] := by
  refine ⟨_, _, .cons (n := 4) rfl rfl (.cons (n := 4) rfl rfl (.nil _)), ?_, ?_⟩ <;> decide +kernel

example : ∃ J seen, OneByOne dbg (plainKernel exactKern) exHalves [0, 1] exMem8 seen J ∧
    seen = [[.done, .done, .done, .value 302], [.done, .done, .done, .value 18]] ∧
    J.bufs[0]? = some [209, 302, 441, 642, 16, 18, 7, 4] := by
  refine ⟨_, _, .cons (n := 4) rfl rfl (.cons (n := 4) rfl rfl (.nil _)), ?_, ?_⟩ <;> decide +kernel

/-- Wherever they have come, the two threads can finish. -/
example (es : List (Happening (Fin 2))) : ∃ (ms : List (Fin 2)) (w : Weak (Fin 2) Int),
    (Weak.start exHalves exMem8).run dbg (plainKernel exactKern) exHalves (es ++ ms.map .move) = some w ∧
      w.Finished exHalves := by
  obtain ⟨R, W, hm, -, hA, hC⟩ := zoned_confined (C91_plainKernel exactKern).1 exHalves_zoned
  refine C94_finishes (C91_plainKernel exactKern).1 hm (fun k => ?_) hA hC (order := [0, 1]) (by decide) es
  obtain ⟨x, hx, e⟩ := Option.map_eq_some_iff.1 (exHalves_alone k)
  exact ⟨4, x, hx, by rw [e]; rfl⟩

set_option synthInstance.maxSize 1000 in
/-- Threads that look at elements that the other changes: the observations of both together are not those of
the programs one after the other in either order. Their accesses conflict. -/
example : ((Weak.start exBuffering ⟨[[0, 0]]⟩).run dbg (plainKernel exactKern) exBuffering
      [.move 0, .move 0, .move 0, .move 1, .move 1, .move 1, .move 0, .move 0, .move 0, .move 1, .move 1,
        .move 1]).map (fun w => ((w.task 0).seen, (w.task 1).seen, w.past)) =
      some ([.done, .value 0], [.done, .value 0],
        [(0, true, ⟨0, 0⟩), (1, true, ⟨0, 1⟩), (0, false, ⟨0, 1⟩), (1, false, ⟨0, 0⟩)]) ∧
    (∃ J seen, OneByOne dbg (plainKernel exactKern) exBuffering [0, 1] ⟨[[0, 0]]⟩ seen J ∧
      seen = [[.done, .value 0], [.done, .value 1]]) ∧
    ∃ J seen, OneByOne dbg (plainKernel exactKern) exBuffering [1, 0] ⟨[[0, 0]]⟩ seen J ∧
      seen = [[.done, .value 0], [.done, .value 1]] := by
  refine ⟨by decide +kernel, ⟨_, _, .cons (n := 2) rfl rfl (.cons (n := 2) rfl rfl (.nil _)), ?_⟩,
    ⟨_, _, .cons (n := 2) rfl rfl (.cons (n := 2) rfl rfl (.nil _)), ?_⟩⟩ <;> decide +kernel

end Householder.Props
