import Verif.Spec.ForkJoin
import Verif.Lemmas.WeakMemory

/-!
# Threads and the same programs one after the other
-/

namespace Householder.Spec

open Steps

variable {ι α : Type} [DecidableEq ι] [Target] [Zero α] [One α] [Add α] [Mul α] {cfg : Cfg}
  {K : GemmArgs α → Steps α Unit} {P : Crew ι α} {mem : Mem α} {R W : ι → Loc → Prop}

/-! ### Operations from beginning to end are moves of one thread -/

omit [Target] [Zero α] [One α] [Add α] [Mul α] in
theorem put_put (s : Scene ι α) (k : ι) (m m' : Mem α) (t t' : Task α) :
    (s.put k m t).put k m' t' = s.put k m' t' := by
  simp only [Scene.put, Scene.mk.injEq, true_and]
  funext l
  split <;> rfl

omit [Target] [Zero α] [One α] [Add α] [Mul α] in
theorem put_same (s : Scene ι α) (k : ι) : s.put k s.mem (s.task k) = s := by
  obtain ⟨mem, task⟩ := s
  simp only [Scene.put, Scene.mk.injEq, true_and]
  funext l
  split
  · rename_i h
    rw [h]
  · rfl

theorem moves_append (s : Scene ι α) (ks ls : List ι) :
    s.moves cfg K P (ks ++ ls) = (s.moves cfg K P ks).bind fun s' => s'.moves cfg K P ls := by
  induction ks generalizing s with
  | nil => rfl
  | cons k ks ih =>
    rw [List.cons_append, Scene.moves, Scene.moves]
    cases s.move cfg K P k with
    | none => rfl
    | some s' => exact ih s'

/-- The scene after an operation of thread `k`. -/
def afterOp (s : Scene ι α) (k : ι) (t : Task α) : Option (Obs α × List (Mat α)) × Mem α → Scene ι α
  | (some r, mem) => s.put k mem ⟨t.seen ++ [r.1], t.mats ++ r.2, none⟩
  | (none, mem) => s.put k mem ⟨t.seen ++ [.panicked], t.mats, none⟩

theorem op_moves (k : ι) (t : Steps α (Obs α × List (Mat α))) (s : Scene ι α) (u : Task α)
    (hc : s.task k = ⟨u.seen, u.mats, some t⟩) :
    ∃ m, s.moves cfg K P (List.replicate m k) = (t.finish s.mem).map (afterOp s k u) := by
  induction t generalizing s with
  | done y =>
    refine ⟨1, ?_⟩
    show (s.move cfg K P k).bind _ = _
    unfold Scene.move
    cases y with
    | ok r => simp only [hc]; rfl
    | panic => simp only [hc]; rfl
    | ub => simp only [hc]; rfl
  | read p f ih =>
    cases hg : s.mem.get? p with
    | none =>
      refine ⟨1, ?_⟩
      show (s.move cfg K P k).bind _ = _
      simp only [Scene.move, hc, hg, Steps.finish]
      rfl
    | some v =>
      obtain ⟨m, e⟩ := ih v (s.put k s.mem ⟨u.seen, u.mats, some (f v)⟩) (by rw [put_self])
      refine ⟨m + 1, ?_⟩
      show (s.move cfg K P k).bind _ = _
      simp only [Scene.move, hc, hg, Steps.finish, Option.bind_some]
      refine e.trans ?_
      congr 1
      funext y
      obtain ⟨_ | r, mem⟩ := y <;> simp only [afterOp, put_put]
  | write p v f ih =>
    cases hg : s.mem.get? p with
    | none =>
      refine ⟨1, ?_⟩
      show (s.move cfg K P k).bind _ = _
      simp only [Scene.move, hc, hg, Steps.finish]
      rfl
    | some _ =>
      obtain ⟨m, e⟩ := ih (s.put k ⟨s.mem.bufs.modify p.buf (·.set p.idx v)⟩ ⟨u.seen, u.mats, some f⟩)
        (by rw [put_self])
      refine ⟨m + 1, ?_⟩
      show (s.move cfg K P k).bind _ = _
      simp only [Scene.move, hc, hg, Steps.finish, Option.bind_some]
      refine e.trans ?_
      congr 1
      funext y
      obtain ⟨_ | r, mem⟩ := y <;> simp only [afterOp, put_put]
  | alloc xs f ih =>
    obtain ⟨m, e⟩ := ih s.mem.bufs.length
      (s.put k ⟨s.mem.bufs ++ [xs]⟩ ⟨u.seen, u.mats, some (f s.mem.bufs.length)⟩) (by rw [put_self])
    refine ⟨m + 1, ?_⟩
    show (s.move cfg K P k).bind _ = _
    simp only [Scene.move, hc, Steps.finish, Option.bind_some]
    refine e.trans ?_
    congr 1
    funext y
    obtain ⟨_ | r, mem⟩ := y <;> simp only [afterOp, put_put]

/-- A thread that runs alone from some moment on. -/
theorem alone_moves (k : ι) (s : Scene ι α) {ms : List (Mat α)} (hs : s.task k = ⟨[], ms, none⟩) (n : Nat) :
    ∃ m, s.moves cfg K P (List.replicate m k) =
      (alone cfg K (P.prog k) ⟨s.mem, ms⟩ n).map fun x => s.put k x.2.mem ⟨x.1, x.2.mats, none⟩ := by
  induction n with
  | zero =>
    refine ⟨0, ?_⟩
    show some s = some (s.put k s.mem ⟨[], ms, none⟩)
    rw [← hs, put_same]
  | succ n ih =>
    obtain ⟨m, e⟩ := ih
    rw [alone]
    cases hx : alone cfg K (P.prog k) ⟨s.mem, ms⟩ n with
    | none => exact ⟨m, by rw [e, hx]; rfl⟩
    | some x =>
      rw [hx] at e
      simp only [Option.bind_some, aloneStep]
      cases hp : P.prog k x.1 with
      | none => exact ⟨m, by rw [e]⟩
      | some op =>
        obtain ⟨j, e2⟩ := op_moves (cfg := cfg) (K := K) (P := P) k (op.steps cfg K x.2.mats)
          (s.put k x.2.mem ⟨x.1, x.2.mats, some (op.steps cfg K x.2.mats)⟩) ⟨x.1, x.2.mats, none⟩
          (by rw [put_self])
        refine ⟨m + (1 + j), ?_⟩
        rw [List.replicate_add, moves_append, e, Option.map_some, Option.bind_some, List.replicate_add,
          List.replicate_one, List.singleton_append, Scene.moves]
        have : (s.put k x.2.mem ⟨x.1, x.2.mats, none⟩).move cfg K P k =
            some (s.put k x.2.mem ⟨x.1, x.2.mats, some (op.steps cfg K x.2.mats)⟩) := by
          simp only [Scene.move, put_self, hp]
          rw [put_put]
          rfl
        rw [this, Option.bind_some, e2, Option.map_map]
        congr 1
        funext y
        obtain ⟨_ | r, mem⟩ := y <;> simp only [afterOp, put_put, Function.comp]

/-! ### How far a run has come -/

theorem alone_length {prog : List (Obs α) → Option (Op α)} {s : St α} {n : Nat}
    {x : List (Obs α) × St α} (hx : alone cfg K prog s n = some x) :
    x.1.length = n ∨ x.1.length < n ∧ prog x.1 = none := by
  induction n generalizing x with
  | zero => cases hx; exact .inl rfl
  | succ n ih =>
    rw [alone, Option.bind_eq_some_iff] at hx
    obtain ⟨y, hy, hx⟩ := hx
    unfold aloneStep at hx
    cases hp : prog y.1 with
    | none =>
      rw [hp] at hx
      cases hx
      rcases ih hy with h | h
      · exact .inr ⟨by omega, hp⟩
      · exact .inr ⟨by omega, hp⟩
    | some op =>
      rw [hp] at hx
      simp only [Option.map_eq_some_iff] at hx
      obtain ⟨⟨r, m⟩, -, hx⟩ := hx
      have hl : y.1.length = n := (ih hy).resolve_right fun h => by rw [h.2] at hp; cases hp
      left
      cases r with
      | none => cases hx; simp [hl]
      | some r => cases hx; simp [hl]

/-- If one run has finished after `n` operations, another, which has observed the beginning of the same,
has finished after them too. -/
theorem finished_too {prog : List (Obs α) → Option (Op α)} {s s' : St α} {n n' : Nat}
    {x y x' : List (Obs α) × St α} (hx : alone cfg K prog s n = some x) (hp : prog x.1 = none)
    (hx' : alone cfg K prog s' n = some x') (hy : alone cfg K prog s n' = some y) (he : x'.1 = y.1) :
    prog x'.1 = none := by
  rcases alone_length hx' with h | h
  · rcases alone_length hy with h' | h'
    · have : n' = n := by rw [← h', ← he, h]
      subst this
      rw [hx] at hy
      cases hy
      rw [he]
      exact hp
    · rw [he]
      exact h'.2
  · exact h.2

/-! ### The programs one after the other -/

/-- What is known of the scenes of a crew, as in `C91_any_schedule`. -/
def Follows (cfg : Cfg) (K : GemmArgs α → Steps α Unit) (P : Crew ι α) (mem : Mem α) (R W : ι → Loc → Prop)
    (s : Scene ι α) : Prop :=
  ∀ k, ∃ n x, alone cfg K (P.prog k) ⟨mem, P.mats k⟩ n = some x ∧ (s.task k).seen = x.1 ∧
    ((s.task k).cur = none → ∀ p : Loc, p.buf < mem.bufs.length → R k p ∨ W k p →
      s.mem.get? p = x.2.mem.get? p)

theorem one_by_one
    (H : ∀ ks, ∃ s, (Scene.start P mem).moves cfg K P ks = some s ∧ Follows cfg K P mem R W s)
    (hf : ∀ k, ∃ n x, alone cfg K (P.prog k) ⟨mem, P.mats k⟩ n = some x ∧ P.prog k x.1 = none)
    (ks : List ι) (hn : ks.Nodup) {past : List ι} {s : Scene ι α}
    (hs : (Scene.start P mem).moves cfg K P past = some s)
    (ht : ∀ k ∈ ks, s.task k = ⟨[], P.mats k, none⟩) :
    ∃ rest s', s.moves cfg K P rest = some s' ∧
      OneByOne cfg K P ks s.mem (ks.map fun k => (s'.task k).seen) s'.mem ∧
      (∀ k ∈ ks, (s'.task k).cur = none ∧ P.prog k (s'.task k).seen = none) ∧
      ∀ k, k ∉ ks → s'.task k = s.task k := by
  induction ks generalizing past s with
  | nil => exact ⟨[], s, rfl, .nil _, fun _ h => (List.not_mem_nil h).elim, fun _ _ => rfl⟩
  | cons k ks ih =>
    obtain ⟨hk, hn⟩ := List.nodup_cons.1 hn
    obtain ⟨n, x, hx, hp⟩ := hf k
    obtain ⟨m, e⟩ := alone_moves (cfg := cfg) (K := K) (P := P) k s (ht k (List.mem_cons_self ..)) n
    obtain ⟨s1, e1, h1⟩ := H (past ++ List.replicate m k)
    have e1' := e1
    rw [moves_append, hs, Option.bind_some, e] at e1'
    obtain ⟨x', hx', rfl⟩ := Option.map_eq_some_iff.1 e1'
    obtain ⟨n', y, hy, hseen, -⟩ := h1 k
    rw [put_self] at hseen
    have hp' := finished_too hx hp hx' hy hseen
    obtain ⟨rest, s', e2, ho, hfin, hoth⟩ := ih hn e1 fun l hl => by
      have hne : l ≠ k := fun e => hk (e ▸ hl)
      rw [put_other _ hne]
      exact ht l (List.mem_cons_of_mem _ hl)
    have hk' : s'.task k = ⟨x'.1, x'.2.mats, none⟩ := by rw [hoth k hk, put_self]
    refine ⟨List.replicate m k ++ rest, s', ?_, ?_, fun l hl => ?_, fun l hl => ?_⟩
    · rw [moves_append, e, hx', Option.map_some, Option.bind_some]
      exact e2
    · rw [List.map_cons, hk']
      exact .cons hx' hp' ho
    · rcases List.mem_cons.1 hl with rfl | hl
      · rw [hk']; exact ⟨rfl, hp'⟩
      · exact hfin l hl
    · have hne : l ≠ k := fun e => hl (e ▸ List.mem_cons_self ..)
      rw [hoth l fun h => hl (List.mem_cons_of_mem _ h), put_other _ hne]

/-! ### Places that nobody writes to -/

omit [DecidableEq ι] [Target] [Zero α] [One α] [Add α] [Mul α] in
theorem stays_unwritten {β : Type} {n : Nat} {R W : Loc → Prop} {t : Steps α β}
    {mem mem' : Mem α} (h : Stays n R W (t.accesses mem)) {r : Option β} (hn : n ≤ mem.bufs.length)
    (hf : t.finish mem = some (r, mem')) {q : Loc} (hq : q.buf < n) (hw : ¬ W q) :
    mem'.get? q = mem.get? q := by
  induction t generalizing mem with
  | done x => cases x with
    | ok b => cases hf; rfl
    | panic => cases hf; rfl
    | ub => cases hf
  | read p k ih =>
    simp only [Steps.finish, Option.bind_eq_some_iff] at hf
    obtain ⟨v, hv, hf⟩ := hf
    exact ih v (h.read.2 v hv) hn hf
  | write p v k ih =>
    simp only [Steps.finish, Option.bind_eq_some_iff] at hf
    obtain ⟨u, hu, hf⟩ := hf
    rw [ih (h.write.2 u hu) (by simpa using hn) hf, get?_modify, if_neg]
    rintro rfl
    exact h.write.1.elim (fun h => absurd hq (Nat.not_lt.2 h)) hw
  | alloc xs k ih =>
    simp only [Steps.finish] at hf
    rw [ih _ h (by simp; omega) hf, get?_append _ _ (lt_of_lt_of_le hq hn)]

omit [DecidableEq ι] in
theorem alone_unwritten (hC : Confined cfg K P mem R W) {k : ι} {n : Nat} {x : List (Obs α) × St α}
    (hx : alone cfg K (P.prog k) ⟨mem, P.mats k⟩ n = some x) :
    mem.bufs.length ≤ x.2.mem.bufs.length ∧
      ∀ q : Loc, q.buf < mem.bufs.length → ¬ W k q → x.2.mem.get? q = mem.get? q := by
  induction n generalizing x with
  | zero => cases hx; exact ⟨le_refl _, fun _ _ _ => rfl⟩
  | succ n ih =>
    rw [alone, Option.bind_eq_some_iff] at hx
    obtain ⟨y, hy, hx⟩ := hx
    obtain ⟨hl, hu⟩ := ih hy
    unfold aloneStep at hx
    cases hp : P.prog k y.1 with
    | none => rw [hp] at hx; cases hx; exact ⟨hl, hu⟩
    | some op =>
      rw [hp] at hx
      simp only [Option.map_eq_some_iff] at hx
      obtain ⟨⟨r, m⟩, hfin, hx⟩ := hx
      have hk := hC k n y op hy hp
      have h1 := hl.trans (finish_length hfin)
      have h2 := fun q hq hw => stays_unwritten hk hl hfin (q := q) hq hw
      cases r with
      | none => cases hx; exact ⟨h1, fun q hq hw => (h2 q hq hw).trans (hu q hq hw)⟩
      | some r => cases hx; exact ⟨h1, fun q hq hw => (h2 q hq hw).trans (hu q hq hw)⟩

/-! ### Places where a thread has not stored yet -/

/-- Where a thread may write but has not, it sees what was there at first. -/
def Calm (mem : Mem α) (W : ι → Loc → Prop) (w : Weak ι α) : Prop :=
  ∀ k p, p.buf < mem.bufs.length → W k p → (k, true, p) ∉ w.past → (w.view k).get? p = mem.get? p

theorem weak_move_view {w w' : Weak ι α} {k : ι} (h : w.move cfg K P k = some w') (l : ι) {p : Loc}
    (hp : p.buf < (w.view l).bufs.length) :
    (∀ a ∈ w.past, a ∈ w'.past) ∧
      ((w'.view l).get? p = (w.view l).get? p ∨ l = k ∧ (k, true, p) ∈ w'.past) := by
  unfold Weak.move at h
  cases hc : (w.task k).cur with
  | none =>
    simp only [hc] at h
    cases ho : P.prog k (w.task k).seen with
    | none => simp only [ho] at h; cases h; exact ⟨fun _ => id, .inl rfl⟩
    | some op => simp only [ho] at h; cases h; exact ⟨fun _ => id, .inl rfl⟩
  | some c => cases c with
    | done y => cases y with
      | ok r => simp only [hc] at h; cases h; exact ⟨fun _ => id, .inl rfl⟩
      | panic => simp only [hc] at h; cases h; exact ⟨fun _ => id, .inl rfl⟩
      | ub => simp only [hc] at h; cases h
    | read q f =>
      simp only [hc, Option.bind_eq_some_iff] at h
      obtain ⟨v, -, h⟩ := h
      cases h
      exact ⟨fun a ha => List.mem_append_left _ ha, .inl rfl⟩
    | write q v f =>
      simp only [hc, Option.bind_eq_some_iff] at h
      obtain ⟨u, -, h⟩ := h
      cases h
      refine ⟨fun a ha => List.mem_append_left _ ha, ?_⟩
      by_cases hl : l = k
      · subst hl
        by_cases hq : p = q
        · subst hq
          exact .inr ⟨rfl, List.mem_append_right _ (List.mem_singleton.2 rfl)⟩
        · left
          show (((w.see l q v)).view l).get? p = _
          simp only [Weak.see, if_pos]
          rw [get?_modify, if_neg hq]
      · left
        show (((w.see k q v)).view l).get? p = _
        simp only [Weak.see, if_neg hl]
    | alloc xs f =>
      simp only [hc] at h
      cases h
      exact ⟨fun _ => id, .inl (get?_append _ _ hp)⟩

omit [DecidableEq ι] in
theorem Spread.wide {ρ : ι → Corr} {w : Weak ι α} (h : Spread cfg K P mem R W ρ w) (k : ι) {b : Nat}
    (hb : b < mem.bufs.length) : b < (w.view k).bufs.length := by
  obtain ⟨n, x, mem', hf⟩ := h.follow k
  exact (hf.range b b (hf.same b hb)).1

theorem Spread.calm (hA : ZonesApart R W) {ρ : ι → Corr} {w w' : Weak ι α}
    (h : Spread cfg K P mem R W ρ w) (hc : Calm mem W w) {e : Happening ι}
    (he : w.happen cfg K P e = some w') : Calm mem W w' := by
  intro k p hp hw hn
  cases e with
  | move l =>
    obtain ⟨h1, h2⟩ := weak_move_view he k (h.wide k hp)
    rcases h2 with h2 | ⟨rfl, h2⟩
    · rw [h2]
      exact hc k p hp hw fun ha => hn (h1 _ ha)
    · exact absurd h2 hn
  | arrive l i =>
    unfold Weak.happen at he
    cases hs : w.stores[i]? with
    | none => simp only [hs] at he; cases he; exact hc k p hp hw hn
    | some s =>
      simp only [hs] at he
      cases he
      split at hn
      · rename_i hm
        rw [if_pos hm]
        exact hc k p hp hw hn
      · rename_i hm
        rw [if_neg hm]
        simp only [Weak.see]
        split
        · rename_i hk
          subst hk
          rw [get?_modify, if_neg]
          · exact hc k p hp hw hn
          · rintro rfl
            exact (hA s.maker k s.place hm ((h.stores s (List.mem_of_getElem? hs)).2 hp)).2 hw
        · exact hc k p hp hw hn
  | early l n =>
    simp only [Weak.happen] at he
    split at he
    · cases he; exact hc k p hp hw hn
    · cases he; exact hc k p hp hw hn

theorem Spread.run_calm (hK : Orderly K) (hA : ZonesApart R W) (hC : Confined cfg K P mem R W)
    (hd : ∀ k n, alone cfg K (P.prog k) ⟨mem, P.mats k⟩ n ≠ none) {ρ : ι → Corr} {w : Weak ι α}
    (h : Spread cfg K P mem R W ρ w) (hc : Calm mem W w) (es : List (Happening ι)) :
    ∃ w' ρ', w.run cfg K P es = some w' ∧ Spread cfg K P mem R W ρ' w' ∧ Calm mem W w' := by
  induction es generalizing w ρ with
  | nil => exact ⟨w, ρ, rfl, h, hc⟩
  | cons e es ih =>
    obtain ⟨w1, ρ1, h1, t1⟩ := h.happen hK hA hC hd e
    obtain ⟨w2, ρ2, h2, t2⟩ := ih t1 (h.calm hA hc h1)
    exact ⟨w2, ρ2, by rw [Weak.run, h1]; exact h2, t2⟩

/-! ### Every thread can finish -/

theorem run_moves (k : ι) (n : Nat) (w : Weak ι α) :
    w.run cfg K P (List.replicate n (.move k)) = Weak.ahead cfg K P k n w := by
  induction n generalizing w with
  | zero => rfl
  | succ n ih =>
    rw [List.replicate_succ, Weak.run, Weak.ahead, Weak.happen]
    cases w.move cfg K P k with
    | none => rfl
    | some w' => exact ih w'

/-- An operation comes to its end. -/
theorem weak_op_ends (k : ι) (t : Steps α (Obs α × List (Mat α))) (w : Weak ι α)
    (hc : (w.task k).cur = some t) :
    ∃ m, ∀ w', Weak.ahead cfg K P k m w = some w' → (w'.task k).cur = none ∧
      (w'.task k).seen.length = (w.task k).seen.length + 1 ∧ ∀ l, l ≠ k → w'.task l = w.task l := by
  induction t generalizing w with
  | done y =>
    refine ⟨1, fun w' e => ?_⟩
    rw [Weak.ahead] at e
    unfold Weak.move at e
    cases y with
    | ok r =>
      simp only [hc, Option.bind_some, Weak.ahead] at e
      cases e
      refine ⟨?_, ?_, fun l hl => weak_put_other w hl _⟩ <;> rw [weak_put_self]
      simp
    | panic =>
      simp only [hc, Option.bind_some, Weak.ahead] at e
      cases e
      refine ⟨?_, ?_, fun l hl => weak_put_other w hl _⟩ <;> rw [weak_put_self]
      simp
    | ub =>
      simp only [hc] at e
      cases e
  | read p f ih =>
    cases hg : (w.view k).get? p with
    | none =>
      refine ⟨1, fun w' e => ?_⟩
      rw [Weak.ahead] at e
      simp only [Weak.move, hc, hg] at e
      cases e
    | some v =>
      obtain ⟨m, hm⟩ := ih v { w.put k ⟨(w.task k).seen, (w.task k).mats, some (f v)⟩ with
        past := w.past ++ [(k, false, p)] } (by simp [Weak.put])
      refine ⟨m + 1, fun w' e => ?_⟩
      rw [Weak.ahead] at e
      simp only [Weak.move, hc, hg, Option.bind_some] at e
      obtain ⟨h1, h2, h3⟩ := hm w' e
      exact ⟨h1, by simpa [Weak.put] using h2, fun l hl => (h3 l hl).trans (weak_put_other w hl _)⟩
  | write p v f ih =>
    cases hg : (w.view k).get? p with
    | none =>
      refine ⟨1, fun w' e => ?_⟩
      rw [Weak.ahead] at e
      simp only [Weak.move, hc, hg] at e
      cases e
    | some u =>
      obtain ⟨m, hm⟩ := ih { (w.see k p v).put k ⟨(w.task k).seen, (w.task k).mats, some f⟩ with
        stores := w.stores ++ [⟨k, p, v⟩]
        past := w.past ++ [(k, true, p)] } (by simp [Weak.put])
      refine ⟨m + 1, fun w' e => ?_⟩
      rw [Weak.ahead] at e
      simp only [Weak.move, hc, hg, Option.bind_some] at e
      obtain ⟨h1, h2, h3⟩ := hm w' e
      exact ⟨h1, by simpa [Weak.put] using h2, fun l hl => (h3 l hl).trans (weak_put_other (w.see k p v) hl _)⟩
  | alloc xs f ih =>
    obtain ⟨m, hm⟩ := ih (w.view k).bufs.length
      { w.put k ⟨(w.task k).seen, (w.task k).mats, some (f (w.view k).bufs.length)⟩ with
        view := fun l => ⟨(w.view l).bufs ++ [xs]⟩ } (by simp [Weak.put])
    refine ⟨m + 1, fun w' e => ?_⟩
    rw [Weak.ahead] at e
    simp only [Weak.move, hc, Option.bind_some] at e
    obtain ⟨h1, h2, h3⟩ := hm w' e
    exact ⟨h1, by simpa [Weak.put] using h2, fun l hl => (h3 l hl).trans (weak_put_other w hl _)⟩

theorem ahead_add (k : ι) (m n : Nat) (w : Weak ι α) :
    Weak.ahead cfg K P k (m + n) w = (Weak.ahead cfg K P k m w).bind (Weak.ahead cfg K P k n) := by
  induction m generalizing w with
  | zero => rw [Nat.zero_add]; rfl
  | succ m ih =>
    rw [Nat.succ_add, Weak.ahead, Weak.ahead]
    cases w.move cfg K P k with
    | none => rfl
    | some w' => exact ih w'

/-- A thread that finishes alone finishes if it is let. -/
theorem Spread.finish (hK : Orderly K) (hC : Confined cfg K P mem R W)
    (hd : ∀ k n, alone cfg K (P.prog k) ⟨mem, P.mats k⟩ n ≠ none) {k : ι} {N : Nat}
    {y : List (Obs α) × St α} (hy : alone cfg K (P.prog k) ⟨mem, P.mats k⟩ N = some y)
    (hp : P.prog k y.1 = none) (j : Nat) {ρ : ι → Corr} {w : Weak ι α}
    (h : Spread cfg K P mem R W ρ w) (hj : N ≤ (w.task k).seen.length + j) :
    ∃ m w' ρ', Weak.ahead cfg K P k m w = some w' ∧ Spread cfg K P mem R W ρ' w' ∧
      (w'.task k).cur = none ∧ P.prog k (w'.task k).seen = none ∧ ∀ l, l ≠ k → w'.task l = w.task l := by
  -- once enough has been observed, an idle thread has finished
  have idle : ∀ {ρ : ι → Corr} {w : Weak ι α}, Spread cfg K P mem R W ρ w → (w.task k).cur = none →
      N ≤ (w.task k).seen.length → P.prog k (w.task k).seen = none := by
    intro ρ w h _ hl
    obtain ⟨n, x, mem', hf⟩ := h.follow k
    rw [hf.seen] at hl ⊢
    rcases alone_length hf.reached with e | e
    · obtain ⟨i, rfl⟩ := Nat.exists_eq_add_of_le (e ▸ hl)
      have := hf.reached
      rw [alone_final hy hp i] at this
      cases this
      exact hp
    · exact e.2
  -- to the end of the present operation
  have settle : ∀ {ρ : ι → Corr} {w : Weak ι α}, Spread cfg K P mem R W ρ w → ∀ c, (w.task k).cur = some c →
      ∃ m w' ρ', Weak.ahead cfg K P k m w = some w' ∧ Spread cfg K P mem R W ρ' w' ∧
        (w'.task k).cur = none ∧ (w'.task k).seen.length = (w.task k).seen.length + 1 ∧
        ∀ l, l ≠ k → w'.task l = w.task l := by
    intro ρ w h c hc
    obtain ⟨m, hm⟩ := weak_op_ends (cfg := cfg) (K := K) (P := P) k c w hc
    obtain ⟨w', ρ', e, h', -⟩ := h.ahead hK hC hd k m
    obtain ⟨h1, h2, h3⟩ := hm w' e
    exact ⟨m, w', ρ', e, h', h1, h2, h3⟩
  induction j generalizing ρ w with
  | zero =>
    cases hc : (w.task k).cur with
    | none => exact ⟨0, w, ρ, rfl, h, hc, idle h hc hj, fun _ _ => rfl⟩
    | some c =>
      obtain ⟨m, w', ρ', e, h', h1, h2, h3⟩ := settle h c hc
      exact ⟨m, w', ρ', e, h', h1, idle h' h1 (by omega), h3⟩
  | succ j ih =>
    cases hc : (w.task k).cur with
    | none =>
      cases ho : P.prog k (w.task k).seen with
      | none => exact ⟨0, w, ρ, rfl, h, hc, ho, fun _ _ => rfl⟩
      | some op =>
        obtain ⟨w1, ρ1, e1, h1, -⟩ := h.move hK hC hd k
        have e1' := e1
        simp only [Weak.move, hc, ho] at e1'
        cases e1'
        obtain ⟨m, w2, ρ2, e2, h2, hi, hl, hoth⟩ := settle h1 (op.steps cfg K (w.task k).mats)
          (by rw [weak_put_self])
        rw [weak_put_self] at hl
        obtain ⟨m', w3, ρ3, e3, h3, hi3, hp3, hoth3⟩ := ih h2 (by simp only at hl; omega)
        refine ⟨1 + (m + m'), w3, ρ3, ?_, h3, hi3, hp3, fun l hne => ?_⟩
        · rw [ahead_add, Weak.ahead, e1, Option.bind_some, Weak.ahead, Option.bind_some, ahead_add, e2,
            Option.bind_some, e3]
        · rw [hoth3 l hne, hoth l hne, weak_put_other w hne]
    | some c =>
      obtain ⟨m, w1, ρ1, e1, h1, hi, hl, hoth⟩ := settle h c hc
      obtain ⟨m', w2, ρ2, e2, h2, hi2, hp2, hoth2⟩ := ih h1 (by omega)
      exact ⟨m + m', w2, ρ2, by rw [ahead_add, e1, Option.bind_some, e2], h2, hi2, hp2,
        fun l hne => (hoth2 l hne).trans (hoth l hne)⟩

/-- All threads finish, one after the other. -/
theorem Spread.finish_all (hK : Orderly K) (hC : Confined cfg K P mem R W)
    (hd : ∀ k n, alone cfg K (P.prog k) ⟨mem, P.mats k⟩ n ≠ none)
    (hf : ∀ k, ∃ n x, alone cfg K (P.prog k) ⟨mem, P.mats k⟩ n = some x ∧ P.prog k x.1 = none)
    (order : List ι) {ρ : ι → Corr} {w : Weak ι α} (h : Spread cfg K P mem R W ρ w) :
    ∃ (ms : List ι) (w' : Weak ι α), w.run cfg K P (ms.map .move) = some w' ∧
      (∀ k ∈ order, (w'.task k).cur = none ∧ P.prog k (w'.task k).seen = none) ∧
      ∀ k, (w.task k).cur = none ∧ P.prog k (w.task k).seen = none →
        (w'.task k).cur = none ∧ P.prog k (w'.task k).seen = none := by
  induction order generalizing ρ w with
  | nil => exact ⟨[], w, rfl, fun _ h => (List.not_mem_nil h).elim, fun _ => id⟩
  | cons k order ih =>
    obtain ⟨N, y, hy, hp⟩ := hf k
    obtain ⟨m, w1, ρ1, e1, h1, hi, hp1, hoth⟩ := h.finish hK hC hd hy hp N (by omega)
    obtain ⟨ms, w2, e2, hall, hkeep⟩ := ih h1
    refine ⟨List.replicate m k ++ ms, w2, ?_, fun l hl => ?_, fun l hl => hkeep l ?_⟩
    · rw [List.map_append, List.map_replicate, weak_run_append, run_moves, e1, Option.bind_some, e2]
    · rcases List.mem_cons.1 hl with rfl | hl
      · exact hkeep l ⟨hi, hp1⟩
      · exact hall l hl
    · by_cases hlk : l = k
      · subst hlk; exact ⟨hi, hp1⟩
      · rw [hoth l hlk]; exact hl

end Householder.Spec
