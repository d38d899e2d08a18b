import Verif.Spec.Threads
import Verif.Props.Views

/-!
# Property C71: threads that own different matrices do not interfere

The programs are in `Verif/Spec/Threads.lean`.
-/

namespace Householder.Props

open Spec

variable {ι α : Type}

/-- A matrix in memory always holds some array. -/
theorem exists_represents [Target] [Nonempty α] {m : BaseMatrix} {mem : Mem α} (h : Sound m mem) :
    ∃ A, Represents m mem A := by
  classical
  refine ⟨fun r c => (elem m mem r c).getD (Classical.arbitrary α), fun r c hs => ?_⟩
  obtain ⟨v, hv⟩ := h.elem_some hs
  simp [hv]

/-- The threads' matrices lie in memory, have no two elements in one cell, and no two of them
share a cell. -/
structure Apart [Target] (P : Threads ι α) (mem : Mem α) : Prop where
  sound : ∀ k, Sound (P.mat k) mem
  single : ∀ k, NonOverlapping (P.mat k).layout
  apart : ∀ k l, k ≠ l → Separate (P.mat k) (P.mat l)

variable [DecidableEq ι]

/-- One move of a thread alone with an abstract array. -/
def soloMove (ps : List (Nat × Nat)) (prog : List (Resp α) → Option (ArrOp α))
    (a : Arr α × List (Resp α)) : Arr α × List (Resp α) :=
  match prog a.2 with
  | none => a
  | some op => ((a.1.step ps op).2, a.2 ++ [(a.1.step ps op).1])

/-- Every matrix holds the array of its thread, which has had the given responses. -/
def Tracks (P : Threads ι α) (s : TState ι α) (a : ι → Arr α × List (Resp α)) : Prop :=
  ∀ k, Represents (P.mat k) s.mem (a k).1 ∧ s.seen k = (a k).2

theorem move_tracks [Target] (cfg : Cfg) (P : Threads ι α) (s : TState ι α)
    (a : ι → Arr α × List (Resp α)) (h : Apart P s.mem) (ht : Tracks P s a) (k : ι) :
    ∃ s', s.move cfg P k = some s' ∧ Apart P s'.mem ∧
      Tracks P s' (fun l => if l = k then
        soloMove (order (P.mat k).layout) (P.prog k) (a k) else a l) ∧
      ∀ q, (∀ k r c, Stored (P.mat k).layout r c → q ≠ cell (P.mat k) r c) →
        s'.mem.get? q = s.mem.get? q := by
  cases hp : P.prog k (s.seen k) with
  | none =>
    refine ⟨s, by simp [TState.move, hp], h, fun l => ?_, fun _ _ => rfl⟩
    by_cases hl : l = k
    · subst hl
      rw [(ht l).2] at hp
      simpa [soloMove, hp] using ht l
    · simpa [hl] using ht l
  | some op =>
    obtain ⟨mem', e, -, hr, hf⟩ :=
      step_refines cfg (P.mat k) s.mem (a k).1 (h.sound k) (h.single k) (ht k).1 op
    refine ⟨_, by simp only [TState.move, hp, e, Option.map_some]; rfl,
      ⟨fun l => (h.sound l).mono (by rw [hf.size]), h.single, h.apart⟩, fun l => ?_,
      fun q hq => hf.other q (hq k)⟩
    by_cases hl : l = k
    · subst hl
      have hp' := hp
      rw [(ht l).2] at hp'
      simp only [if_true, soloMove, hp']
      exact ⟨hr, by rw [(ht l).2]⟩
    · simp only [if_neg hl]
      refine ⟨fun r c hs => ?_, (ht l).2⟩
      rw [← (ht l).1 r c hs]
      exact hf.other _ fun r' c' hs' => h.apart l k hl r c r' c' hs hs'

theorem moves_tracks [Target] (cfg : Cfg) (P : Threads ι α) (σ : List ι) :
    ∀ (s : TState ι α) (a : ι → Arr α × List (Resp α)), Apart P s.mem → Tracks P s a →
    ∃ s', s.moves cfg P σ = some s' ∧
      Tracks P s' (fun k => (soloMove (order (P.mat k).layout) (P.prog k))^[σ.count k] (a k)) ∧
      ∀ q, (∀ k r c, Stored (P.mat k).layout r c → q ≠ cell (P.mat k) r c) →
        s'.mem.get? q = s.mem.get? q := by
  induction σ with
  | nil => exact fun s a _ ht => ⟨s, rfl, by simpa using ht, fun _ _ => rfl⟩
  | cons k σ ih =>
    intro s a h ht
    obtain ⟨s1, e1, h1, t1, f1⟩ := move_tracks cfg P s a h ht k
    obtain ⟨s2, e2, t2, f2⟩ := ih s1 _ h1 t1
    refine ⟨s2, by simp [TState.moves, e1, e2], fun l => ?_, fun q hq => by rw [f2 q hq, f1 q hq]⟩
    have := t2 l
    by_cases hl : l = k
    · subst hl
      simpa using this
    · beta_reduce at this ⊢
      rw [List.count_cons_of_ne (fun e => hl e.symm)]
      rwa [if_neg hl] at this

/-- **C71.** Threads that own matrices without common cells, each choosing its operations from the
responses it has had, never reach undefined behaviour, whatever the schedule and however many
threads there are. Each thread gets exactly the responses, and leaves exactly the elements, that
it would have got and left running alone for as many moves. Nothing outside the matrices changes. -/
theorem C71_any_schedule [Target] [Nonempty α] (cfg : Cfg) (P : Threads ι α) (mem : Mem α)
    (h : Apart P mem) (σ : List ι) :
    ∃ s, (TState.start mem).moves cfg P σ = some s ∧
      (∀ k, ∃ alone, (TState.start mem).moves cfg P (List.replicate (σ.count k) k) = some alone ∧
        s.seen k = alone.seen k ∧
        ∀ r c, Stored (P.mat k).layout r c →
          s.mem.get? (cell (P.mat k) r c) = alone.mem.get? (cell (P.mat k) r c)) ∧
      ∀ q, (∀ k r c, Stored (P.mat k).layout r c → q ≠ cell (P.mat k) r c) →
        s.mem.get? q = mem.get? q := by
  choose A hA using fun k => exists_represents (h.sound k)
  have ht : Tracks P (TState.start mem) (fun k => (A k, [])) := fun k => ⟨hA k, rfl⟩
  obtain ⟨s, e, t, f⟩ := moves_tracks cfg P σ (TState.start mem) _ h ht
  refine ⟨s, e, fun k => ?_, f⟩
  obtain ⟨s', e', t', -⟩ :=
    moves_tracks cfg P (List.replicate (σ.count k) k) (TState.start mem) _ h ht
  have tk := t k
  have tk' := t' k
  beta_reduce at tk tk'
  rw [List.count_replicate_self] at tk'
  exact ⟨s', e', by rw [tk.2, tk'.2], fun r c hs => (tk.1 r c hs).trans (tk'.1 r c hs).symm⟩

/-- **C71**, second half: two schedules that give every thread the same number of moves end in the
same memory and with the same responses. -/
theorem C71_schedules_agree [Target] [Nonempty α] (cfg : Cfg) (P : Threads ι α) (mem : Mem α)
    (h : Apart P mem) (σ τ : List ι) (hc : ∀ k, σ.count k = τ.count k) :
    ∃ s t, (TState.start mem).moves cfg P σ = some s ∧ (TState.start mem).moves cfg P τ = some t ∧
      (∀ k, s.seen k = t.seen k) ∧ ∀ q, s.mem.get? q = t.mem.get? q := by
  obtain ⟨s, e, hs, fs⟩ := C71_any_schedule cfg P mem h σ
  obtain ⟨t, e', ht, ft⟩ := C71_any_schedule cfg P mem h τ
  refine ⟨s, t, e, e', fun k => ?_, fun q => ?_⟩
  · obtain ⟨x, e1, e2, -⟩ := hs k
    obtain ⟨y, e3, e4, -⟩ := ht k
    rw [hc k, e3] at e1
    obtain rfl : y = x := by simpa using e1
    rw [e2, e4]
  · by_cases hq : ∃ k r c, Stored (P.mat k).layout r c ∧ q = cell (P.mat k) r c
    · obtain ⟨k, r, c, hst, rfl⟩ := hq
      obtain ⟨x, e1, -, e2⟩ := hs k
      obtain ⟨y, e3, -, e4⟩ := ht k
      rw [hc k, e3] at e1
      obtain rfl : y = x := by simpa using e1
      rw [e2 r c hst, e4 r c hst]
    · push Not at hq
      rw [fs q hq, ft q hq]

/-! ### Data races -/

/-- An operation either panics without touching memory, or touches one cell of its matrix. -/
theorem target_cases [Target] (cfg : Cfg) {m : BaseMatrix} {mem : Mem α} (h : Sound m mem) (op : ArrOp α) :
    (target cfg m op = .panic ∧ exec cfg m mem op = .panic) ∨
    ∃ r c v, Stored m.layout r c ∧ target cfg m op = .ok (cell m r c) ∧
      mem.get? (cell m r c) = some v := by
  have hpos : ∀ k, (∃ r c, Stored m.layout r c ∧ k = index m.layout r c) ∨
      ¬ k < count m.layout := by
    intro k
    by_cases hk : k < count m.layout
    · obtain ⟨r, c, hs, rfl⟩ := exists_index hk
      exact .inl ⟨r, c, hs, rfl⟩
    · exact .inr hk
  cases op with
  | get r c =>
    by_cases hs : Stored m.layout r c
    · obtain ⟨v, hv⟩ := h.elem_some hs
      exact .inr ⟨r, c, v, hs, h.get_mut cfg hs, hv⟩
    · exact .inl ⟨(not_stored_panic cfg m mem hs).2, by
        simp [exec, (not_stored_panic cfg m mem hs).1]⟩
  | set r c v =>
    by_cases hs : Stored m.layout r c
    · obtain ⟨v, hv⟩ := h.elem_some hs
      exact .inr ⟨r, c, v, hs, h.get_mut cfg hs, hv⟩
    · exact .inl ⟨(not_stored_panic cfg m mem hs).2, by
        simp [exec, BaseMatrix.set, (not_stored_panic cfg m mem hs).2]⟩
  | update r c f =>
    by_cases hs : Stored m.layout r c
    · obtain ⟨v, hv⟩ := h.elem_some hs
      exact .inr ⟨r, c, v, hs, h.get_mut cfg hs, hv⟩
    · exact .inl ⟨(not_stored_panic cfg m mem hs).2, by
        simp [exec, (not_stored_panic cfg m mem hs).2]⟩
  | get1d k =>
    rcases hpos k with ⟨r, c, hs, rfl⟩ | hk
    · obtain ⟨v, hv⟩ := h.elem_some hs
      exact .inr ⟨r, c, v, hs, h.get1d_mut cfg hs, hv⟩
    · exact .inl ⟨h.get1d_mut_panic cfg hk, by simp [exec, h.get1d_panic cfg hk]⟩
  | set1d k v =>
    rcases hpos k with ⟨r, c, hs, rfl⟩ | hk
    · obtain ⟨v, hv⟩ := h.elem_some hs
      exact .inr ⟨r, c, v, hs, h.get1d_mut cfg hs, hv⟩
    · exact .inl ⟨h.get1d_mut_panic cfg hk, by
        simp [exec, BaseMatrix.set1d, h.get1d_mut_panic cfg hk]⟩
  | update1d k f =>
    rcases hpos k with ⟨r, c, hs, rfl⟩ | hk
    · obtain ⟨v, hv⟩ := h.elem_some hs
      exact .inr ⟨r, c, v, hs, h.get1d_mut cfg hs, hv⟩
    · exact .inl ⟨h.get1d_mut_panic cfg hk, by simp [exec, h.get1d_mut_panic cfg hk]⟩

omit [DecidableEq ι] in
/-- **C71**, race freedom: whatever operations two different threads are about to perform, they do
not access the same place. -/
theorem C71_race_free [Target] (cfg : Cfg) (P : Threads ι α) (mem : Mem α) (h : Apart P mem) (k l : ι)
    (hne : k ≠ l) (op op' : ArrOp α) (p p' : Loc) (hp : target cfg (P.mat k) op = .ok p)
    (hp' : target cfg (P.mat l) op' = .ok p') : p ≠ p' := by
  rcases target_cases cfg (h.sound k) op with ⟨e, -⟩ | ⟨r, c, _, hs, e, -⟩
  · rw [e] at hp; cases hp
  rcases target_cases cfg (h.sound l) op' with ⟨e', -⟩ | ⟨r', c', _, hs', e', -⟩
  · rw [e'] at hp'; cases hp'
  rw [e] at hp
  rw [e'] at hp'
  cases hp
  cases hp'
  exact h.apart k l hne r c r' c' hs hs'

/-- **C71**, footprints: an operation changes at most the place it accesses, and what it returns
depends on the contents of that place only. So `C71_race_free` speaks about all the memory traffic
of the threads. -/
theorem C71_footprint [Target] (cfg : Cfg) (m : BaseMatrix) (mem mem' : Mem α) (h : Sound m mem)
    (h' : Sound m mem') (op : ArrOp α)
    (hp : ∀ p, target cfg m op = .ok p → mem.get? p = mem'.get? p) :
    ∃ r after after', step cfg m mem op = some (r, after) ∧
      step cfg m mem' op = some (r, after') ∧
      (∀ q, target cfg m op ≠ .ok q → after.get? q = mem.get? q) ∧
      ∀ p, target cfg m op = .ok p → after.get? p = after'.get? p := by
  rcases target_cases cfg h op with ⟨e, x⟩ | ⟨r, c, v, hs, e, hv⟩
  · rcases target_cases cfg h' op with ⟨-, x'⟩ | ⟨_, _, _, _, e', _⟩
    · refine ⟨.panicked, mem, mem', by simp [step, x], by simp [step, x'], fun _ _ => rfl, ?_⟩
      intro p hp; rw [e] at hp; cases hp
    · rw [e] at e'; cases e'
  · have hv' := hp _ e
    rw [hv] at hv'
    have read : ∀ n : Mem α, n.get? (cell m r c) = some v → n.read (cell m r c) = .ok v :=
      fun n hn => Mem.read_ok_iff.2 hn
    have write : ∀ w, ∃ n n', mem.write (cell m r c) w = .ok n ∧
        mem'.write (cell m r c) w = .ok n' ∧ Mem.Upd mem n (cell m r c) w ∧
        Mem.Upd mem' n' (cell m r c) w := by
      intro w
      obtain ⟨n, e1, u1⟩ := Mem.write_upd (v := w) (h.cell_lt hs)
      obtain ⟨n', e2, u2⟩ := Mem.write_upd (v := w) (h'.cell_lt hs)
      exact ⟨n, n', e1, e2, u1, u2⟩
    have fin : ∀ w n n', Mem.Upd mem n (cell m r c) w → Mem.Upd mem' n' (cell m r c) w →
        (∀ q, target cfg m op ≠ .ok q → n.get? q = mem.get? q) ∧
        ∀ p, target cfg m op = .ok p → n.get? p = n'.get? p := by
      intro w n n' u u'
      refine ⟨fun q hq => ?_, fun p hp => ?_⟩
      · rw [u.get, if_neg]
        rintro rfl; exact hq e
      · rw [e] at hp; cases hp
        rw [u.get, u'.get]; simp
    have stay : (∀ q, target cfg m op ≠ .ok q → mem.get? q = mem.get? q) ∧
        ∀ p, target cfg m op = .ok p → mem.get? p = mem'.get? p :=
      ⟨fun _ _ => rfl, hp⟩
    cases op with
    | get i j =>
      by_cases hs' : Stored m.layout i j
      · obtain e' := h.get_mut cfg hs'
        simp only [target] at e
        rw [e] at e'
        simp only [Out.ok.injEq] at e'
        have a : elem m mem i j = some v := by rw [elem, ← e', hv]
        have a' : elem m mem' i j = some v := by rw [elem, ← e', hv']
        exact ⟨.value v, mem, mem', by simp [step, exec, h.get cfg hs' a],
          by simp [step, exec, h'.get cfg hs' a'], stay⟩
      · simp only [target] at e
        rw [(not_stored_panic cfg m mem hs').2] at e; cases e
    | get1d k =>
      simp only [target] at e
      by_cases hk : k < count m.layout
      · obtain ⟨i, j, hs', rfl⟩ := exists_index hk
        obtain e' := h.get1d_mut cfg hs'
        rw [e] at e'
        simp only [Out.ok.injEq] at e'
        have a : elem m mem i j = some v := by rw [elem, ← e', hv]
        have a' : elem m mem' i j = some v := by rw [elem, ← e', hv']
        exact ⟨.value v, mem, mem', by simp [step, exec, h.get1d cfg hs' a],
          by simp [step, exec, h'.get1d cfg hs' a'], stay⟩
      · rw [h.get1d_mut_panic cfg hk] at e; cases e
    | set i j w =>
      simp only [target] at e
      obtain ⟨n, n', e1, e2, u1, u2⟩ := write w
      exact ⟨.done, n, n', by simp [step, exec, BaseMatrix.set, e, e1],
        by simp [step, exec, BaseMatrix.set, e, e2], fin w n n' u1 u2⟩
    | set1d k w =>
      simp only [target] at e
      obtain ⟨n, n', e1, e2, u1, u2⟩ := write w
      exact ⟨.done, n, n', by simp [step, exec, BaseMatrix.set1d, e, e1],
        by simp [step, exec, BaseMatrix.set1d, e, e2], fin w n n' u1 u2⟩
    | update i j f =>
      simp only [target] at e
      obtain ⟨n, n', e1, e2, u1, u2⟩ := write (f v)
      exact ⟨.done, n, n', by simp [step, exec, e, read mem hv, e1],
        by simp [step, exec, e, read mem' hv'.symm, e2], fin _ n n' u1 u2⟩
    | update1d k f =>
      simp only [target] at e
      obtain ⟨n, n', e1, e2, u1, u2⟩ := write (f v)
      exact ⟨.done, n, n', by simp [step, exec, e, read mem hv, e1],
        by simp [step, exec, e, read mem' hv'.symm, e2], fin _ n n' u1 u2⟩

/-- Places accessed by two operations on two of the views of a split, and an operation that
accesses nothing. -/
example : (exFour.split_in_four_mut dbg (2, 2) >>= fun q => target dbg (quad q 0)
      (.update 1 1 (· + 1 : Int → Int))) = .ok ⟨0, 5⟩ ∧
    (exFour.split_in_four_mut dbg (2, 2) >>= fun q => target dbg (quad q 3)
      (.get1d 2 : ArrOp Int)) = .ok ⟨0, 14⟩ ∧
    (exFour.split_in_four_mut dbg (2, 2) >>= fun q => target dbg (quad q 3)
      (.get1d 4 : ArrOp Int)) = .panic := by
  decide

/-! ### The four views of a split -/

/-- **C71** for the crate: the four views of `split_in_four_mut`
(src/matrix/matrix_slices.rs:101-182) can be given to four threads. -/
theorem C71_split [Target] (cfg : Cfg) (m : BaseMatrix) (mem : Mem α) (h : Sound m mem) (R C : Nat)
    (hl : m.layout = .rowMajor ⟨(R, C)⟩) (s : Nat × Nat) (h1 : 0 < s.1) (h2 : s.1 < R)
    (h3 : 0 < s.2) (h4 : s.2 < C) (prog : Fin 4 → List (Resp α) → Option (ArrOp α)) :
    ∃ q, m.split_in_four_mut cfg s = .ok q ∧ Apart ⟨quad q, prog⟩ mem := by
  obtain ⟨q, e, hb⟩ := split_blocks cfg h hl h1 h2 h3 h4
  obtain ⟨q', e', hsep, -⟩ := C33_partial cfg m mem h R C hl s h1 h2 h3 h4
  rw [e] at e'
  obtain rfl : q = q' := by simpa using e'
  have hm : IsMajor m.layout := by rw [hl]; trivial
  have hc : Contiguous m.layout := by rw [hl]; trivial
  have key : ∀ k, View (quad q k) mem ∧ NonOverlapping (quad q k).layout := by
    intro k
    obtain ⟨b, e1, hv, -, -, -, hn, -⟩ :=
      (view_of_contiguous h hm hc).block cfg (hb k).2.1 (hb k).2.2.1 (hb k).2.2.2
    rw [(hb k).1] at e1
    cases e1
    exact ⟨hv, hn⟩
  exact ⟨q, e, fun k => (key k).1.sound, fun k => (key k).2, hsep⟩

/-- Four threads on the views of a 4 × 4 matrix. Each reads its first element, then writes twice
what it read plus its number to its last element, then tries an element it does not have. -/
def exThreads (q : BaseMatrix × BaseMatrix × BaseMatrix × BaseMatrix) : Threads (Fin 4) Int :=
  ⟨quad q, fun k seen => match seen with
    | [] => some (.get 0 0)
    | [.value v] => some (.set 1 1 (2 * v + k))
    | [_, _] => some (.get 2 0)
    | _ => none⟩

set_option synthInstance.maxSize 1000 in
/-- Two interleavings of the four threads that end in the same memory, seen through the whole
matrix, with the same responses. -/
example : (exFour.split_in_four_mut dbg (2, 2) >>= fun q => .ok
      (((TState.start exMem4).moves dbg (exThreads q) [0, 1, 1, 3, 0, 2, 3, 1, 0, 3, 2, 3]).map
        fun s => (s.mem.bufs, s.seen 0, s.seen 1, s.seen 2, s.seen 3))) =
    (exFour.split_in_four_mut dbg (2, 2) >>= fun q => .ok
      (((TState.start exMem4).moves dbg (exThreads q) [3, 3, 3, 2, 1, 3, 2, 1, 0, 0, 1, 0]).map
        fun s => (s.mem.bufs, s.seen 0, s.seen 1, s.seen 2, s.seen 3))) ∧
    (exFour.split_in_four_mut dbg (2, 2) >>= fun q => .ok
      (((TState.start exMem4).moves dbg (exThreads q) [0, 1, 1, 3, 0, 2, 3, 1, 0, 3, 2, 3]).map
        fun s => (s.mem.get? ⟨0, 5⟩, s.seen 3, s.seen 2))) =
      .ok (some (some 0, [.value 10, .done, .panicked], [.value 8, .done])) ∧
    ∀ k : Fin 4, [0, 1, 1, 3, 0, 2, 3, 1, 0, 3, 2, 3].count k =
      [3, 3, 3, 2, 1, 3, 2, 1, 0, 0, 1, 0].count k := by
  decide

/-- The hypothesis of the theorems of this section holds of these threads. -/
example : ∃ q, exFour.split_in_four_mut dbg (2, 2) = .ok q ∧ Apart (exThreads q) exMem4 := by
  obtain ⟨q, e, h⟩ := C71_split dbg exFour exMem4 exFour_sound 4 4 rfl (2, 2) (by decide)
    (by decide) (by decide) (by decide) (exThreads (exFour, exFour, exFour, exFour)).prog
  exact ⟨q, e, h⟩

/-- Without separation the schedule matters: two threads with the same matrix. -/
example :
    let P : Threads (Fin 2) Int := ⟨fun _ => exFour, fun k seen => match seen with
      | [] => some (.get 0 0)
      | [.value v] => some (.set 0 0 (v + 1 + k))
      | _ => none⟩
    ((TState.start exMem4).moves dbg P [0, 1, 0, 1]).map (fun s => s.mem.get? ⟨0, 0⟩) =
      some (some 2) ∧
    ((TState.start exMem4).moves dbg P [0, 0, 1, 1]).map (fun s => s.mem.get? ⟨0, 0⟩) =
      some (some 3) := by
  decide

end Householder.Props
