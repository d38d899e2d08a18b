import Verif.Spec.Interleave
import Verif.Lemmas.Interleave
import Verif.Props.Threads

/-!
# C91: threads that run the library's functions, interrupted between any two accesses to memory

`C71` lets threads alternate between accesses to single elements. Here each thread runs whole
functions of the library — constructors, `for_each`, expressions, `eval`, `matmul`, `dot` — and other
threads run between any two of their accesses to memory.
-/

namespace Householder.Props

open Spec Steps

variable {ι α : Type}

section

variable [Target] [Zero α] [One α] [Add α] [Mul α]

/-- Without interruption the functions of `Model/Steps.lean` do what those of the rest of the model
do, whatever the order in which the kernel reads and writes. -/
theorem C91_operations (cfg : Cfg) {K : GemmArgs α → Steps α Unit} {kern : Kern α}
    (hK : Computes K kern) (s : St α) (op : Op α) :
    op.exec cfg kern s = match (op.steps cfg K s.mats).finish s.mem with
      | some (some r, mem) => .ok (r.1, ⟨mem, s.mats ++ r.2⟩)
      | some (none, _) => .panic
      | none => .ub := by
  rw [out_op cfg hK, out_finish]
  cases (op.steps cfg K s.mats).finish s.mem with
  | none => rfl
  | some x =>
    obtain ⟨r, mem⟩ := x
    cases r <;> rfl

omit [Target] [Zero α] [One α] [Add α] [Mul α] in
/-- The kernel that computes one element after the other meets the assumptions of the theorems. -/
theorem C91_plainKernel (kern : Kern α) :
    Orderly (plainKernel kern) ∧ Computes (plainKernel kern) kern :=
  ⟨⟨fun x _ _ => keeps_plainKernel kern x, fun _ _ _ ho _ h => alike_plainKernel kern ho h⟩,
    fun x hx mem => out_plainKernel kern x hx mem⟩

variable {cfg : Cfg} {K : GemmArgs α → Steps α Unit} {P : Crew ι α} {mem : Mem α}
  {R W : ι → Loc → Prop}

/-- **C91**: threads that each, alone, have defined behaviour and stay in their zones have defined
behaviour in every schedule and never race. Each observes what it observes alone, and between its
operations it finds in its zones what it finds there alone. -/
theorem C91_any_schedule [DecidableEq ι] (hK : Orderly K)
    (hm : ∀ k, ∀ m ∈ P.mats k, LivesIn mem.bufs.length m)
    (hd : ∀ k n, alone cfg K (P.prog k) ⟨mem, P.mats k⟩ n ≠ none)
    (hA : ZonesApart R W) (hC : Confined cfg K P mem R W) (ks : List ι) :
    ∃ s, (Scene.start P mem).moves cfg K P ks = some s ∧ ¬ s.Race ∧
      ∀ k, ∃ n x, alone cfg K (P.prog k) ⟨mem, P.mats k⟩ n = some x ∧ (s.task k).seen = x.1 ∧
        ((s.task k).cur = none → ∀ p : Loc, p.buf < mem.bufs.length → R k p ∨ W k p →
          s.mem.get? p = x.2.mem.get? p) := by
  obtain ⟨s, e, h⟩ := (Together.start (cfg := cfg) (K := K) (R := R) (W := W) hm).moves hK hA hC hd ks
  refine ⟨s, e, h.no_race hA hd, fun k => ?_⟩
  obtain ⟨ρ, hρ, -⟩ := h
  obtain ⟨n, x, mem', hf⟩ := hρ k
  refine ⟨n, x, hf.reached, hf.seen, fun hc p hp hs => ?_⟩
  rw [← hf.idle hc]
  exact hf.agree p.buf p.buf p.idx (hf.same _ hp) (.inr hs)

/-- Zones in which the threads work element by element. -/
theorem zoned_zones (hm : ∀ k, ∀ m ∈ P.mats k, LivesIn mem.bufs.length m)
    (hd : ∀ k n, alone cfg K (P.prog k) ⟨mem, P.mats k⟩ n ≠ none)
    (hA : ZonesApart R W)
    (hz : ∀ k, ∀ m ∈ P.mats k, InZone mem.bufs.length (R k) mem m.layout.dim m)
    (ho : ∀ k n x op, alone cfg K (P.prog k) ⟨mem, P.mats k⟩ n = some x → P.prog k x.1 = some op →
      op.Minds mem.bufs.length (R k) (W k) mem x.2.mats) : Zoned cfg K P mem :=
  ⟨R, W, mem, hm, hd, hA, hz, fun k n x op h1 h2 _ => ho k n x op h1 h2⟩

/-- Zones that contain the windows of the matrices. -/
theorem zoned_windows (hm : ∀ k, ∀ m ∈ P.mats k, LivesIn mem.bufs.length m)
    (hd : ∀ k n, alone cfg K (P.prog k) ⟨mem, P.mats k⟩ n ≠ none)
    (hA : ZonesApart R W) (hr : ∀ k, ∀ m ∈ P.mats k, ∀ q, Covers m q → R k q)
    (hw : ∀ k n x op, alone cfg K (P.prog k) ⟨mem, P.mats k⟩ n = some x → P.prog k x.1 = some op →
      ∀ (h : Nat) b, op.writesTo = some h → x.2.mats[h]? = some (.base b) →
        ∀ q, inWindow q b → mem.bufs.length ≤ q.buf ∨ W k q) : Zoned cfg K P mem := by
  refine ⟨R, W, ⟨[]⟩, hm, hd, hA, fun k m h => inZone_of_covers fun q hq => .inr (hr k m h q hq),
    fun k n x op h1 h2 hk => ⟨fun h _ b e => ?_, fun h b e1 e2 => ?_⟩⟩
  · exact covers_of_inZone (hk _ (List.mem_of_getElem? e))
  · have := hw k n x op h1 h2 h b e1 e2
    exact ⟨.inl this, fun _ => this⟩

/-- Threads whose matrices have no element of a window in common. -/
theorem zoned_own_windows (hm : ∀ k, ∀ m ∈ P.mats k, LivesIn mem.bufs.length m)
    (hd : ∀ k n, alone cfg K (P.prog k) ⟨mem, P.mats k⟩ n ≠ none)
    (hw : ∀ k l, k ≠ l → ∀ m ∈ P.mats k, ∀ m' ∈ P.mats l, ∀ q, Covers m q → ¬ Covers m' q) :
    Zoned cfg K P mem := by
  have hA : ZonesApart (fun k q => ∃ m ∈ P.mats k, Covers m q) (fun k q => ∃ m ∈ P.mats k, Covers m q) := by
    rintro k l p hne ⟨m, h, hq⟩
    exact ⟨fun ⟨m', h', hq'⟩ => hw k l hne m h m' h' p hq hq',
      fun ⟨m', h', hq'⟩ => hw k l hne m h m' h' p hq hq'⟩
  refine ⟨_, _, ⟨[]⟩, hm, hd, hA, fun k m h => inZone_of_covers fun q hq => .inr ⟨m, h, hq⟩,
    fun k n x op h1 h2 hk => ⟨fun h _ b e => ?_, fun h b e1 e2 => ?_⟩⟩
  · exact covers_of_inZone (hk _ (List.mem_of_getElem? e))
  · have := covers_of_inZone (hk _ (List.mem_of_getElem? e2))
    exact ⟨.inl this, fun _ => this⟩

/-- Threads that share matrices and write to matrices they have made themselves. -/
theorem zoned_readers (hm : ∀ k, ∀ m ∈ P.mats k, LivesIn mem.bufs.length m)
    (hd : ∀ k n, alone cfg K (P.prog k) ⟨mem, P.mats k⟩ n ≠ none)
    (hw : ∀ k n x op, alone cfg K (P.prog k) ⟨mem, P.mats k⟩ n = some x → P.prog k x.1 = some op →
      ∀ (h : Nat) b, op.writesTo = some h → x.2.mats[h]? = some (.base b) →
        mem.bufs.length ≤ b.data.buf) : Zoned cfg K P mem :=
  zoned_windows (R := fun k q => ∃ m ∈ P.mats k, Covers m q) (W := fun _ _ => False) hm hd
    (fun _ _ _ _ h => h.elim) (fun _ m h _ hq => ⟨m, h, hq⟩)
    (fun k n x op h1 h2 h b e1 e2 _ hq => .inl (hq.1 ▸ hw k n x op h1 h2 h b e1 e2))

/-- **C91** for zones in which the threads work element by element. -/
theorem C91_zones [DecidableEq ι] (hK : Orderly K)
    (hm : ∀ k, ∀ m ∈ P.mats k, LivesIn mem.bufs.length m)
    (hd : ∀ k n, alone cfg K (P.prog k) ⟨mem, P.mats k⟩ n ≠ none)
    (hA : ZonesApart R W)
    (hz : ∀ k, ∀ m ∈ P.mats k, InZone mem.bufs.length (R k) mem m.layout.dim m)
    (ho : ∀ k n x op, alone cfg K (P.prog k) ⟨mem, P.mats k⟩ n = some x → P.prog k x.1 = some op →
      op.Minds mem.bufs.length (R k) (W k) mem x.2.mats) (ks : List ι) :
    RunsAsAlone cfg K P mem ks :=
  (zoned_zones hm hd hA hz ho).run hK ks

/-- **C91** for zones that contain the windows of the matrices: reading is free, what is written to
must be in the second zone. -/
theorem C91_windows [DecidableEq ι] (hK : Orderly K)
    (hm : ∀ k, ∀ m ∈ P.mats k, LivesIn mem.bufs.length m)
    (hd : ∀ k n, alone cfg K (P.prog k) ⟨mem, P.mats k⟩ n ≠ none)
    (hA : ZonesApart R W) (hr : ∀ k, ∀ m ∈ P.mats k, ∀ q, Covers m q → R k q)
    (hw : ∀ k n x op, alone cfg K (P.prog k) ⟨mem, P.mats k⟩ n = some x → P.prog k x.1 = some op →
      ∀ (h : Nat) b, op.writesTo = some h → x.2.mats[h]? = some (.base b) →
        ∀ q, inWindow q b → mem.bufs.length ≤ q.buf ∨ W k q) (ks : List ι) :
    RunsAsAlone cfg K P mem ks :=
  (zoned_windows hm hd hA hr hw).run hK ks

/-- Threads whose matrices have no element of a window in common may do with them what they like. -/
theorem C91_own_windows [DecidableEq ι] (hK : Orderly K)
    (hm : ∀ k, ∀ m ∈ P.mats k, LivesIn mem.bufs.length m)
    (hd : ∀ k n, alone cfg K (P.prog k) ⟨mem, P.mats k⟩ n ≠ none)
    (hw : ∀ k l, k ≠ l → ∀ m ∈ P.mats k, ∀ m' ∈ P.mats l, ∀ q, Covers m q → ¬ Covers m' q)
    (ks : List ι) : RunsAsAlone cfg K P mem ks :=
  (zoned_own_windows hm hd hw).run hK ks

/-- Threads that share matrices, and each write only to matrices they have made themselves. -/
theorem C91_readers [DecidableEq ι] (hK : Orderly K)
    (hm : ∀ k, ∀ m ∈ P.mats k, LivesIn mem.bufs.length m)
    (hd : ∀ k n, alone cfg K (P.prog k) ⟨mem, P.mats k⟩ n ≠ none)
    (hw : ∀ k n x op, alone cfg K (P.prog k) ⟨mem, P.mats k⟩ n = some x → P.prog k x.1 = some op →
      ∀ (h : Nat) b, op.writesTo = some h → x.2.mats[h]? = some (.base b) →
        mem.bufs.length ≤ b.data.buf) (ks : List ι) : RunsAsAlone cfg K P mem ks :=
  (zoned_readers hm hd hw).run hK ks

/-- Schedules that let a thread finish agree on what it observes. -/
theorem C91_schedules_agree [DecidableEq ι] {ks ks' : List ι} (h : RunsAsAlone cfg K P mem ks)
    (h' : RunsAsAlone cfg K P mem ks') {s s' : Scene ι α}
    (e : (Scene.start P mem).moves cfg K P ks = some s)
    (e' : (Scene.start P mem).moves cfg K P ks' = some s') (k : ι)
    (hf : (s.task k).cur = none ∧ P.prog k (s.task k).seen = none)
    (hf' : (s'.task k).cur = none ∧ P.prog k (s'.task k).seen = none) :
    (s.task k).seen = (s'.task k).seen ∧
      SameElements cfg (s.task k).mats s.mem (s'.task k).mats s'.mem := by
  obtain ⟨_, e1, -, h⟩ := h
  obtain ⟨_, e2, -, h'⟩ := h'
  rw [e] at e1
  rw [e'] at e2
  cases e1
  cases e2
  obtain ⟨n, x, hx, h1, h2⟩ := h k
  obtain ⟨n', x', hx', h1', h2'⟩ := h' k
  have a := alone_final hx (h1 ▸ hf.2) n'
  have b := alone_final hx' (h1' ▸ hf'.2) n
  rw [Nat.add_comm, a] at b
  cases b
  refine ⟨h1.trans h1'.symm, ?_⟩
  have key : ∀ {a b c : List (Mat α)}, SameElements cfg a s.mem c x.2.mem →
      SameElements cfg b s'.mem c x.2.mem → SameElements cfg a s.mem b s'.mem := by
    intro a b c ha hb
    induction ha generalizing b with
    | nil => cases hb; exact .nil
    | cons u _ ih => cases hb with
      | cons v w =>
        exact .cons ⟨u.1.trans v.1.symm, fun r c => (u.2.1 r c).trans (v.2.1 r c).symm,
          fun k => (u.2.2 k).trans (v.2.2 k).symm⟩ (ih w)
  exact key (h2 hf.1) (h2' hf'.1)

/-- Threads that use the elements of the four parts of a split. -/
theorem zoned_split {m : BaseMatrix} (h : Sound m mem) {rows cols : Nat}
    (hl : m.layout = .rowMajor ⟨(rows, cols)⟩) {s : Nat × Nat} (h1 : 0 < s.1) (h2 : s.1 < rows)
    (h3 : 0 < s.2) (h4 : s.2 < cols) (hb : m.data.buf < mem.bufs.length)
    (prog : Fin 4 → List (Obs α) → Option (Op α)) :
    ∃ q, m.split_in_four_mut cfg s = .ok q ∧
      ((∀ k n, alone cfg K (prog k) ⟨mem, [.base (quad q k)]⟩ n ≠ none) →
        (∀ k n x op, alone cfg K (prog k) ⟨mem, [.base (quad q k)]⟩ n = some x → prog k x.1 = some op →
          ∀ h ∈ op.whole, ∀ b, x.2.mats[h]? = some (.base b) → mem.bufs.length ≤ b.data.buf) →
        Zoned cfg K ⟨fun k => [.base (quad q k)], prog⟩ mem) := by
  obtain ⟨q, e, hbl⟩ := split_blocks cfg h hl h1 h2 h3 h4
  obtain ⟨q', e', hsep, -⟩ := C33_partial cfg m mem h rows cols hl s h1 h2 h3 h4
  rw [e] at e'
  obtain rfl : q = q' := by simpa using e'
  have hm : IsMajor m.layout := by rw [hl]; trivial
  have hc : Contiguous m.layout := by rw [hl]; trivial
  have hv : ∀ k, View (quad q k) mem ∧ (quad q k).data.buf = m.data.buf := by
    intro k
    obtain ⟨b, e1, hv, -, hw, -, hn, -⟩ :=
      (view_of_contiguous h hm hc).block cfg (hbl k).2.1 (hbl k).2.2.1 (hbl k).2.2.2
    rw [(hbl k).1] at e1
    cases e1
    exact ⟨hv, block_buf (hbl k).1⟩
  refine ⟨q, e, fun hd ho => ?_⟩
  let Z : Fin 4 → Loc → Prop := fun k p => ∃ r c, Stored (quad q k).layout r c ∧ cell (quad q k) r c = p
  have hA : ZonesApart Z Z := by
    rintro k l p hne ⟨r, c, hs, rfl⟩
    have : ¬ Z l (cell (quad q k) r c) := by
      rintro ⟨r', c', hs', e⟩
      exact hsep l k (fun e => hne e.symm) r' c' r c hs' hs e
    exact ⟨this, this⟩
  refine ⟨Z, Z, mem, ?_, hd, hA, ?_, fun k n x op e1 e2 hk => ⟨?_, ?_⟩⟩
  · intro k m hm
    obtain rfl := List.mem_singleton.1 hm
    show (quad q k).data.buf < _
    rw [(hv k).2]
    exact hb
  · intro k m hm
    obtain rfl := List.mem_singleton.1 hm
    exact .inr ⟨(hv k).1.sound, (hv k).1.major.notTri, rfl, fun r c hs => ⟨r, c, hs, rfl⟩⟩
  · exact fun h hh b eb p hp => .inl (hp.1 ▸ ho k n x op e1 e2 h hh b eb)
  · exact fun h b ew eb => ⟨hk _ (List.mem_of_getElem? eb),
      fun hh p hp => .inl (hp.1 ▸ ho k n x op e1 e2 h hh b eb)⟩

/-- What is proved of the four parts of a split: the threads may use the elements of their parts, in
whatever functions work element by element, and do anything with matrices that they make themselves.
Missing from the claim: slices and products of the parts, and views of them, whose windows overlap. -/
theorem C91_split_partial (hK : Orderly K) {m : BaseMatrix} (h : Sound m mem) {rows cols : Nat}
    (hl : m.layout = .rowMajor ⟨(rows, cols)⟩) {s : Nat × Nat} (h1 : 0 < s.1) (h2 : s.1 < rows)
    (h3 : 0 < s.2) (h4 : s.2 < cols) (hb : m.data.buf < mem.bufs.length)
    (prog : Fin 4 → List (Obs α) → Option (Op α)) :
    ∃ q, m.split_in_four_mut cfg s = .ok q ∧
      ((∀ k n, alone cfg K (prog k) ⟨mem, [.base (quad q k)]⟩ n ≠ none) →
        (∀ k n x op, alone cfg K (prog k) ⟨mem, [.base (quad q k)]⟩ n = some x → prog k x.1 = some op →
          ∀ h ∈ op.whole, ∀ b, x.2.mats[h]? = some (.base b) → mem.bufs.length ≤ b.data.buf) →
        ∀ ks, RunsAsAlone cfg K ⟨fun k => [.base (quad q k)], prog⟩ mem ks) := by
  obtain ⟨q, e, hz⟩ := zoned_split (cfg := cfg) (K := K) h hl h1 h2 h3 h4 hb prog
  exact ⟨q, e, fun hd ho => (hz hd ho).run hK⟩

end

/-! ### What is false, and examples -/

/-- The full statement of C91 for the crate: the four parts of a split can be given to four threads
that do with them what they like. -/
def C91_statement [Target] : Prop :=
  ∀ (cfg : Cfg) (m : BaseMatrix) (mem : Mem Int) (rows cols : Nat) (s : Nat × Nat)
    (q : BaseMatrix × BaseMatrix × BaseMatrix × BaseMatrix)
    (prog : Fin 4 → List (Obs Int) → Option (Op Int)),
    Sound m mem → m.layout = .rowMajor ⟨(rows, cols)⟩ → 0 < s.1 → s.1 < rows → 0 < s.2 → s.2 < cols →
    m.split_in_four_mut cfg s = .ok q →
    (∀ k n, alone cfg (plainKernel exactKern) (prog k) ⟨mem, [.base (quad q k)]⟩ n ≠ none) →
    ∀ ks, RunsAsAlone cfg (plainKernel exactKern) ⟨fun k => [.base (quad q k)], prog⟩ mem ks

/-- The parts of the 4 × 4 matrix. -/
def exQuarters : BaseMatrix × BaseMatrix × BaseMatrix × BaseMatrix :=
  (⟨⟨0, 0, 6⟩, .asRowMajor ⟨(2, 2), (4, 1)⟩, .dynamic, .dynamic⟩,
    ⟨⟨0, 2, 6⟩, .asRowMajor ⟨(2, 2), (4, 1)⟩, .dynamic, .dynamic⟩,
    ⟨⟨0, 8, 6⟩, .asRowMajor ⟨(2, 2), (4, 1)⟩, .dynamic, .dynamic⟩,
    ⟨⟨0, 10, 6⟩, .asRowMajor ⟨(2, 2), (4, 1)⟩, .dynamic, .dynamic⟩)

/-- A thread that does these operations one after the other. -/
def inTurn (ops : List (Op Int)) : List (Obs Int) → Option (Op Int) := fun seen => ops[seen.length]?

/-- The first thread makes a 2 × 2 matrix and stores its square in the first part, the second reads
an element of the second part. -/
def exRacing : Fin 4 → List (Obs Int) → Option (Op Int)
  | 0 => inTurn [.fromSlice .dynamic .dynamic [1, 2, 3, 4] (.rowMajor ⟨(2, 2)⟩), .matmul 1 1 1 0 0]
  | 1 => inTurn [.get 0 0 0]
  | _ => inTurn []

theorem exRacing_defined [Target] (k : Fin 4) (n : Nat) :
    alone dbg (plainKernel exactKern) (exRacing k) ⟨exMem4, [.base (quad exQuarters k)]⟩ n ≠ none := by
  match k with
  | 0 => exact alone_defined (n := 2) (x := ([.done, .done], ⟨⟨[[7, 10, 15, 22, 4, 5, 6, 7, 8, 9, 10, 11, 12,
      13, 14, 15], [1, 2, 3, 4]]⟩, [.base exQuarters.1,
      .base ⟨⟨1, 0, 4⟩, .rowMajor ⟨(2, 2)⟩, .dynamic, .dynamic⟩]⟩)) (by rfl_width) rfl n
  | 1 => exact alone_defined (n := 1) (x := ([.value 2], ⟨exMem4, [.base exQuarters.2.1]⟩)) (by rfl_width) rfl n
  | 2 => exact alone_defined (n := 0) rfl rfl n
  | 3 => exact alone_defined (n := 0) rfl rfl n

/-- **C91 is false of the crate**: a product stored in the first part of a split is stored in elements
of the second (the kernel is told that the rows of the part follow each other, C07), so it races with
a thread that reads the second part. -/
theorem C91_false [Target] : ¬ C91_statement := by
  intro h
  obtain ⟨s, e, hr, -⟩ := h dbg exFour exMem4 4 4 (2, 2) exQuarters exRacing exFour_sound rfl (by decide)
    (by decide) (by decide) (by decide) (by rfl_width) exRacing_defined (List.replicate 21 0 ++ [1])
  have key : ((Scene.start ⟨fun k => [.base (quad exQuarters k)], exRacing⟩ exMem4).moves dbg
      (plainKernel exactKern) ⟨fun k => [.base (quad exQuarters k)], exRacing⟩
      (List.replicate 21 0 ++ [1])).map (fun s => ((s.task 0).about, (s.task 1).about)) =
      some (some (true, ⟨0, 2⟩), some (false, ⟨0, 2⟩)) := by rfl_width
  rw [e] at key
  simp only [Option.map_some, Option.some.injEq, Prod.mk.injEq] at key
  exact hr ⟨0, 1, true, false, ⟨0, 2⟩, by decide, key.1, key.2, .inl rfl⟩

/-- A condition along the run of a thread that finishes after `n` operations, checked operation by
operation. -/
theorem along_alone [Target] {prog : List (Obs Int) → Option (Op Int)} {s : St Int}
    (C : St Int → Op Int → Bool) (n : Nat) {x : List (Obs Int) × St Int}
    (hx : alone dbg (plainKernel exactKern) prog s n = some x) (hp : prog x.1 = none)
    (hc : ∀ j < n, ((alone dbg (plainKernel exactKern) prog s j).elim true fun y =>
      (prog y.1).elim true (C y.2)) = true) (j : Nat) (y : List (Obs Int) × St Int) (op : Op Int)
    (hy : alone dbg (plainKernel exactKern) prog s j = some y) (ho : prog y.1 = some op) :
    C y.2 op = true := by
  by_cases hj : j < n
  · have := hc j hj
    rwa [hy, Option.elim_some, ho, Option.elim_some] at this
  · obtain ⟨i, rfl⟩ := Nat.exists_eq_add_of_le (Nat.le_of_not_lt hj)
    rw [alone_final hx hp i] at hy
    cases hy
    rw [hp] at ho
    cases ho

/-- The base matrix at a position is in a new allocation (the first has number 0). -/
def newAt (s : St Int) (h : Nat) : Bool :=
  match s.mats[h]? with
  | some (.base b) => decide (1 ≤ b.data.buf)
  | _ => true

theorem newAt_spec {s : St Int} {h : Nat} (e : newAt s h = true) {b : BaseMatrix}
    (hb : s.mats[h]? = some (.base b)) : 1 ≤ b.data.buf := by
  simpa [newAt, hb] using e

/-- Each thread evaluates twice its part, squares the result, adds its number to the elements of the
part, and looks at an element of the square and one of the part. -/
def exWork (k : Fin 4) : List (Obs Int) → Option (Op Int) :=
  inTurn [.scale true true 2 0, .eval 1, .dot 2 2, .forEach 0 (fun _ v => v + k), .get 3 1 1, .get 0 1 0]

/-- What the threads do alone. -/
theorem exWork_alone (k : Fin 4) :
    (alone dbg (plainKernel exactKern) (exWork k) ⟨exMem4, [.base (quad exQuarters k)]⟩ 6).map (·.1) =
      some [.done, .done, .done, .done, .value (match k with | 0 => 116 | 1 => 268 | 2 => 1108 | 3 => 1516),
        .value (match k with | 0 => 4 | 1 => 7 | 2 => 14 | 3 => 17)] := by
  decide +revert

/-- The hypotheses of `C91_split_partial` hold of these threads, so every schedule does for each of
them what it does alone. -/
example (ks : List (Fin 4)) :
    RunsAsAlone dbg (plainKernel exactKern) ⟨fun k => [.base (quad exQuarters k)], exWork⟩ exMem4 ks := by
  obtain ⟨q, e, h⟩ := C91_split_partial (cfg := dbg) (C91_plainKernel exactKern).1 exFour_sound
    (rows := 4) (cols := 4) rfl (s := (2, 2)) (by decide) (by decide) (by decide) (by decide) (by decide)
    exWork
  obtain rfl : exQuarters = q := by
    have : exFour.split_in_four_mut dbg (2, 2) = .ok exQuarters := rfl
    rw [this] at e
    cases e
    rfl
  have fin : ∀ k, ∃ x, alone dbg (plainKernel exactKern) (exWork k) ⟨exMem4, [.base (quad exQuarters k)]⟩ 6 =
      some x ∧ exWork k x.1 = none := by
    intro k
    have := exWork_alone k
    obtain ⟨x, hx, e⟩ := Option.map_eq_some_iff.1 this
    exact ⟨x, hx, by rw [e]; rfl⟩
  refine h (fun k n => ?_) (fun k n x op hx hop j hj b hb => ?_) ks
  · obtain ⟨x, hx, hp⟩ := fin k
    exact alone_defined hx hp n
  · obtain ⟨y, hy, hp⟩ := fin k
    have hc : ∀ k : Fin 4, ∀ j < 6, ((alone dbg (plainKernel exactKern) (exWork k)
        ⟨exMem4, [.base (quad exQuarters k)]⟩ j).elim true fun y => (exWork k y.1).elim true
          fun op => op.whole.all (newAt y.2)) = true := by decide
    have := along_alone (fun s op => op.whole.all (newAt s)) 6 hy hp (hc k) n x op hx hop
    exact newAt_spec (List.all_eq_true.1 this j hj) hb

/-- One such schedule, in which the threads take turns after every access: what they observe is what
they observe alone. -/
example : ((Scene.start ⟨fun k => [.base (quad exQuarters k)], exWork⟩ exMem4).moves dbg
    (plainKernel exactKern) ⟨fun k => [.base (quad exQuarters k)], exWork⟩
    (List.replicate 80 [0, 3, 1, 2]).flatten).map (fun s => ((s.task 0).seen, (s.task 3).seen,
      s.mem.get? ⟨0, 0⟩, s.mem.get? ⟨0, 15⟩)) =
    some ([.done, .done, .done, .done, .value 116, .value 4],
      [.done, .done, .done, .done, .value 1516, .value 17], some 0, some 18) := by
  decide +kernel

/-- Two threads with a 2 × 2 matrix each, in the two halves of one allocation. -/
def exHalves : Crew (Fin 2) Int :=
  ⟨fun k => [.base ⟨⟨0, 4 * k, 4⟩, .rowMajor ⟨(2, 2)⟩, .dynamic, .dynamic⟩],
    fun k => inTurn [.dot 0 0, .writeSlice 0 0 2 [5, 6], .matmul 1 1 1 (2 + k) 0, .get 0 0 1]⟩

/-- The memory of the two threads. -/
def exMem8 : Mem Int := ⟨[[1, 2, 3, 4, 1, 0, 1, 1]]⟩

/-- What they do alone: the second thread, for instance, ends with the square of `[1 0; 2 1]` plus three
times `[5 6; 1 1]`. -/
theorem exHalves_alone (k : Fin 2) :
    (alone dbg (plainKernel exactKern) (exHalves.prog k) ⟨exMem8, exHalves.mats k⟩ 4).map (·.1) =
      some [.done, .done, .done, .value (match k with | 0 => 302 | 1 => 18)] := by
  decide +revert

/-- The hypotheses of `C91_own_windows` hold of them, although the two matrices are in the same
allocation and slices and products of them are used. -/
theorem exHalves_run (ks : List (Fin 2)) : RunsAsAlone dbg (plainKernel exactKern) exHalves exMem8 ks := by
  refine C91_own_windows (C91_plainKernel exactKern).1 ?_ ?_ ?_ ks
  · intro k m hm
    obtain rfl := List.mem_singleton.1 hm
    exact Nat.zero_lt_one
  · intro k n
    obtain ⟨x, hx, e⟩ := Option.map_eq_some_iff.1 (exHalves_alone k)
    exact alone_defined hx (by rw [e]; rfl) n
  · intro k l hne m hm m' hm' q hq hq'
    obtain rfl := List.mem_singleton.1 hm
    obtain rfl := List.mem_singleton.1 hm'
    obtain ⟨-, h1, h2⟩ := hq
    obtain ⟨-, h3, h4⟩ := hq'
    have : k.val ≠ l.val := fun e => hne (Fin.ext e)
    simp only at h1 h2 h3 h4
    omega

set_option synthInstance.maxSize 1000 in
/-- Two schedules that let both finish, the second letting one thread run after the other. -/
example :
    ((Scene.start exHalves exMem8).moves dbg (plainKernel exactKern) exHalves
      (List.replicate 70 [0, 1]).flatten).map (fun s => (s.mem.get? ⟨0, 1⟩, s.mem.get? ⟨0, 5⟩,
        (s.task 0).seen, (s.task 1).seen, exHalves.prog 0 (s.task 0).seen |>.isNone)) =
      some (some 302, some 18, [.done, .done, .done, .value 302], [.done, .done, .done, .value 18], true) ∧
    ((Scene.start exHalves exMem8).moves dbg (plainKernel exactKern) exHalves
      (List.replicate 70 1 ++ List.replicate 70 0)).map (fun s => (s.mem.get? ⟨0, 1⟩, s.mem.get? ⟨0, 5⟩,
        (s.task 0).seen, (s.task 1).seen, exHalves.prog 0 (s.task 0).seen |>.isNone)) =
      some (some 302, some 18, [.done, .done, .done, .value 302], [.done, .done, .done, .value 18], true) := by
  decide +kernel

/-- Two threads that share a matrix: each multiplies it with itself, adds it to the product and
doubles the elements of what it has made. -/
def exShared : Crew (Fin 2) Int :=
  ⟨fun _ => [.base ⟨⟨0, 0, 4⟩, .rowMajor ⟨(2, 2)⟩, .dynamic, .dynamic⟩],
    fun k => inTurn [.dot 0 0, .add true true 0 1, .eval 2, .forEach 3 (fun _ v => 2 * v), .get 3 k 1]⟩

theorem exShared_alone (k : Fin 2) :
    (alone dbg (plainKernel exactKern) (exShared.prog k) ⟨exMem8, exShared.mats k⟩ 5).map (·.1) =
      some [.done, .done, .done, .done, .value (match k with | 0 => 24 | 1 => 52)] := by
  decide +revert

/-- The hypotheses of `C91_readers` hold of them. -/
example (ks : List (Fin 2)) : RunsAsAlone dbg (plainKernel exactKern) exShared exMem8 ks := by
  have fin : ∀ k, ∃ x, alone dbg (plainKernel exactKern) (exShared.prog k) ⟨exMem8, exShared.mats k⟩ 5 =
      some x ∧ exShared.prog k x.1 = none := by
    intro k
    obtain ⟨x, hx, e⟩ := Option.map_eq_some_iff.1 (exShared_alone k)
    exact ⟨x, hx, by rw [e]; rfl⟩
  refine C91_readers (C91_plainKernel exactKern).1 ?_ (fun k n => ?_) (fun k n x op hx hop h b hw hb => ?_) ks
  · intro k m hm
    obtain rfl := List.mem_singleton.1 hm
    exact Nat.zero_lt_one
  · obtain ⟨x, hx, hp⟩ := fin k
    exact alone_defined hx hp n
  · obtain ⟨y, hy, hp⟩ := fin k
    have hc : ∀ k : Fin 2, ∀ j < 5, ((alone dbg (plainKernel exactKern) (exShared.prog k)
        ⟨exMem8, exShared.mats k⟩ j).elim true fun y => (exShared.prog k y.1).elim true
          fun op => op.writesTo.elim true (newAt y.2)) = true := by decide
    have := along_alone (fun s op => op.writesTo.elim true (newAt s)) 5 hy hp (hc k) n x op hx hop
    rw [hw, Option.elim_some] at this
    exact newAt_spec this hb

/-- Threads that write to the same matrix: an update is lost, the schedule decides what they see. -/
example :
    let P : Crew (Fin 2) Int := ⟨fun _ => [.base ⟨⟨0, 0, 4⟩, .rowMajor ⟨(2, 2)⟩, .dynamic, .dynamic⟩],
      fun _ => inTurn [.forEach 0 (fun _ v => v + 1), .get 0 0 0]⟩
    ((Scene.start P exMem8).moves dbg (plainKernel exactKern) P (List.replicate 16 [0, 1]).flatten).map
      (fun s => ((s.task 0).seen, (s.task 1).seen)) = some ([.done, .value 2], [.done, .value 2]) ∧
    ((Scene.start P exMem8).moves dbg (plainKernel exactKern) P
      (List.replicate 20 0 ++ List.replicate 20 1)).map
      (fun s => ((s.task 0).seen, (s.task 1).seen)) = some ([.done, .value 2], [.done, .value 3]) ∧
    ((Scene.start P exMem8).moves dbg (plainKernel exactKern) P [0, 0, 1]).map
      (fun s => ((s.task 0).about, (s.task 1).about)) =
      some (some (true, ⟨0, 0⟩), some (false, ⟨0, 0⟩)) := by
  decide +kernel

end Householder.Props
