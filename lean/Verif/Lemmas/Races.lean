import Verif.Spec.Races
import Verif.Lemmas.ForkJoin

/-!
# Threads that race and threads that do not
-/

namespace Householder.Spec

open Steps

variable {ι α : Type} [Target] [Zero α] [One α] [Add α] [Mul α] {cfg : Cfg}
  {K : GemmArgs α → Steps α Unit} {P : Crew ι α} {mem : Mem α} {R W : ι → Loc → Prop}

/-! ### The zones of what the threads do alone -/

/-- The places of the given memory that the thread, alone, reads or writes. -/
def Touches (cfg : Cfg) (K : GemmArgs α → Steps α Unit) (P : Crew ι α) (mem : Mem α) (w : Bool) (k : ι)
    (p : Loc) : Prop := p.buf < mem.bufs.length ∧ Accesses cfg K P mem k (w, p)

theorem accesses_confined :
    Confined cfg K P mem (Touches cfg K P mem false) (Touches cfg K P mem true) := by
  rintro k n x op hx hop ⟨w, p⟩ ha
  by_cases hp : p.buf < mem.bufs.length
  · right
    cases w with
    | false => exact ⟨hp, n, x, op, hx, hop, ha⟩
    | true => exact ⟨hp, n, x, op, hx, hop, ha⟩
  · exact .inl (Nat.not_lt.1 hp)

theorem accesses_apart (h : ¬ Conflict cfg K P mem) :
    ZonesApart (Touches cfg K P mem false) (Touches cfg K P mem true) :=
  fun k l p hne hw => ⟨fun hr => h ⟨k, l, false, p, hne, hw.1, hw.2, hr.2⟩,
    fun hr => h ⟨k, l, true, p, hne, hw.1, hw.2, hr.2⟩⟩

/-! ### Corresponding computations make corresponding accesses -/

omit [Target] [Zero α] [One α] [Add α] [Mul α] in
theorem accesses_alike {β : Type} {S : Corr → β → β → Prop} {n : Nat} {Z : Loc → Prop} {ρ : Corr}
    {c c' : Steps α β} {m m' : Mem α} (ha : Alike S ρ c c') (h1 : OneToOne ρ) (same : ∀ b < n, ρ b b)
    (range : ∀ b b', ρ b b' → b < m.bufs.length ∧ b' < m'.bufs.length)
    (agree : ∀ b b' i, ρ b b' → (n ≤ b' ∨ Z ⟨b', i⟩) → m.get? ⟨b, i⟩ = m'.get? ⟨b', i⟩)
    (hs : ∀ a ∈ c'.accesses m', n ≤ a.2.buf ∨ Z a.2) {a : Bool × Loc} (hm : a ∈ c'.accesses m')
    (hn : a.2.buf < n) : a ∈ c.accesses m := by
  induction c' generalizing c ρ m m' with
  | done y => rw [Steps.accesses] at hm; exact (List.not_mem_nil hm).elim
  | read p' k' ih =>
    cases c with
    | read p k =>
      obtain ⟨hr, hi, ha⟩ := ha
      obtain ⟨b, i⟩ := p
      obtain ⟨b', i'⟩ := p'
      simp only at hr hi
      subst hi
      rw [Steps.accesses] at hm hs ⊢
      have hg := agree b b' i hr (hs _ (List.mem_cons_self ..))
      rcases List.mem_cons.1 hm with rfl | hm
      · have := (h1 b b' b' b' hr (same b' hn)).2 rfl
        subst this
        exact List.mem_cons_self ..
      · refine List.mem_cons_of_mem _ ?_
        cases hv : m'.get? ⟨b', i⟩ with
        | none => rw [hv] at hm; exact (List.not_mem_nil hm).elim
        | some v =>
          rw [hg, hv]
          rw [hv] at hm hs
          exact ih v (ha v) h1 same range agree (fun a ha => hs a (List.mem_cons_of_mem _ ha)) hm
    | done y => cases y <;> exact ha.elim
    | _ => exact ha.elim
  | write p' v' k' ih =>
    cases c with
    | write p v k =>
      obtain ⟨hr, hi, rfl, ha⟩ := ha
      have hpp := hr
      rw [Steps.accesses] at hm hs ⊢
      have hp : (⟨p'.buf, p.idx⟩ : Loc) = p' := by rw [hi]
      have hg : m.get? p = m'.get? p' := by
        have := agree p.buf p'.buf p.idx hr (by rw [hp]; exact hs _ (List.mem_cons_self ..))
        rwa [hp] at this
      rcases List.mem_cons.1 hm with rfl | hm
      · have hb := (h1 _ _ _ _ hr (same p'.buf hn)).2 rfl
        have : p = p' := by
          obtain ⟨b, i⟩ := p
          obtain ⟨b', i'⟩ := p'
          simp only at hb hi
          rw [hb, hi]
        rw [this]
        exact List.mem_cons_self ..
      · refine List.mem_cons_of_mem _ ?_
        cases hv : m'.get? p' with
        | none => rw [hv] at hm; exact (List.not_mem_nil hm).elim
        | some u =>
          rw [hg, hv]
          rw [hv] at hm hs
          refine ih ha h1 same (fun b b' e => by simpa using range b b' e) (fun b b' i hb hz => ?_)
            (fun a ha => hs a (List.mem_cons_of_mem _ ha)) hm
          rw [get?_modify, get?_modify]
          have hiff : (⟨b, i⟩ : Loc) = p ↔ (⟨b', i⟩ : Loc) = p' :=
            LocAlike.eq_iff h1 (p := ⟨b, i⟩) (p' := ⟨b', i⟩) ⟨hb, rfl⟩ ⟨hr, hi⟩
          by_cases hq : (⟨b, i⟩ : Loc) = p
          · rw [if_pos hq, if_pos (hiff.1 hq), hg]
          · rw [if_neg hq, if_neg fun e => hq (hiff.2 e)]
            exact agree b b' i hb hz
    | done y => cases y <;> exact ha.elim
    | _ => exact ha.elim
  | alloc xs' k' ih =>
    cases c with
    | alloc xs k =>
      obtain ⟨rfl, ha⟩ := ha
      rw [Steps.accesses] at hm hs ⊢
      have f1 : ∀ b, ¬ ρ m.bufs.length b := fun b e => by have := (range _ _ e).1; omega
      have f2 : ∀ b, ¬ ρ b m'.bufs.length := fun b e => by have := (range _ _ e).2; omega
      refine ih _ (ha _ _ f1 f2) (h1.extend f1 f2) (fun b hb => .inl (same b hb)) ?_ ?_ hs hm
      · rintro b b' (hb | ⟨rfl, rfl⟩)
        · have := range b b' hb
          simp only [List.length_append, List.length_singleton]
          omega
        · simp
      · rintro b b' i (hb | ⟨rfl, rfl⟩) hz
        · have := range b b' hb
          rw [get?_append _ _ this.1, get?_append _ _ this.2]
          exact agree b b' i hb hz
        · rw [get?_new, get?_new]
    | done y => cases y <;> exact ha.elim
    | _ => exact ha.elim

/-! ### One thread moves -/

variable [DecidableEq ι]

/-- The thread has done, in this scene, what it does alone. -/
def OnTrack (cfg : Cfg) (K : GemmArgs α → Steps α Unit) (P : Crew ι α) (mem : Mem α) (R W : ι → Loc → Prop)
    (s : Scene ι α) (k : ι) : Prop :=
  ∃ ρ n x mem', Following cfg K (P.prog k) ⟨mem, P.mats k⟩ (R k) (W k) s.mem (s.task k) ρ n x mem'

/-- It goes on doing so while only it moves. -/
theorem OnTrack.move (hK : Orderly K) (hC : Confined cfg K P mem R W)
    (hd : ∀ k n, alone cfg K (P.prog k) ⟨mem, P.mats k⟩ n ≠ none) {s : Scene ι α} {k : ι}
    (h : OnTrack cfg K P mem R W s k) :
    ∃ s', s.move cfg K P k = some s' ∧ OnTrack cfg K P mem R W s' k ∧ ∀ l, l ≠ k → s'.task l = s.task l := by
  obtain ⟨ρ, n, x, mem', hf⟩ := h
  have put : ∀ {m t ρ n x mem'}, Following cfg K (P.prog k) ⟨mem, P.mats k⟩ (R k) (W k) m t ρ n x mem' →
      OnTrack cfg K P mem R W (s.put k m t) k ∧ ∀ l, l ≠ k → (s.put k m t).task l = s.task l := by
    intro m t ρ n x mem' h
    exact ⟨⟨ρ, n, x, mem', by rw [put_self]; exact h⟩, fun l hl => put_other s hl _ _⟩
  unfold Scene.move
  cases hc : (s.task k).cur with
  | none =>
    simp only [hc]
    cases ho : P.prog k (s.task k).seen with
    | none => exact ⟨s, rfl, ⟨ρ, n, x, mem', hf⟩, fun _ _ => rfl⟩
    | some op => exact ⟨_, rfl, put (hf.choose hK hc ho (hC k n x op hf.reached (hf.seen ▸ ho)))⟩
  | some c => cases c with
    | done y => cases y with
      | ok r =>
        obtain ⟨x', hf⟩ := hf.ended hc
        exact ⟨_, by simp only [hc], put hf⟩
      | panic =>
        obtain ⟨x', hf⟩ := hf.panicked hc
        exact ⟨_, by simp only [hc], put hf⟩
      | ub => exact absurd hc (hf.not_ub (hd k (n + 1)))
    | read p f =>
      obtain ⟨-, v, hv, hf⟩ := hf.reads (hd k (n + 1)) hc
      exact ⟨_, by simp only [hc, hv, Option.bind_some], put hf⟩
    | write p v f =>
      obtain ⟨-, ⟨u, hu⟩, mem2, hf2⟩ := hf.writes (hd k (n + 1)) hc
      exact ⟨_, by simp only [hc, hu, Option.bind_some], put hf2⟩
    | alloc xs f =>
      obtain ⟨mem2, hf2⟩ := hf.allocates hc
      exact ⟨_, by simp only [hc], put hf2⟩

theorem OnTrack.moves (hK : Orderly K) (hC : Confined cfg K P mem R W)
    (hd : ∀ k n, alone cfg K (P.prog k) ⟨mem, P.mats k⟩ n ≠ none) {s : Scene ι α} {k : ι}
    (h : OnTrack cfg K P mem R W s k) (m : Nat) :
    ∃ s', s.moves cfg K P (List.replicate m k) = some s' ∧ OnTrack cfg K P mem R W s' k ∧
      ∀ l, l ≠ k → s'.task l = s.task l := by
  induction m generalizing s with
  | zero => exact ⟨s, rfl, h, fun _ _ => rfl⟩
  | succ m ih =>
    obtain ⟨s1, e1, h1, o1⟩ := h.move hK hC hd
    obtain ⟨s2, e2, h2, o2⟩ := ih h1
    exact ⟨s2, by rw [List.replicate_succ, Scene.moves, e1]; exact e2, h2,
      fun l hl => (o2 l hl).trans (o1 l hl)⟩

/-- A thread that runs comes to each of the accesses of its operation. -/
theorem comes_to (k : ι) (c : Steps α (Obs α × List (Mat α))) (s : Scene ι α) (u : Task α)
    (hc : s.task k = ⟨u.seen, u.mats, some c⟩) {a : Bool × Loc} (ha : a ∈ c.accesses s.mem) :
    ∃ m s', s.moves cfg K P (List.replicate m k) = some s' ∧ (s'.task k).about = some a := by
  induction c generalizing s with
  | done y => rw [Steps.accesses] at ha; exact (List.not_mem_nil ha).elim
  | read p f ih =>
    rw [Steps.accesses] at ha
    rcases List.mem_cons.1 ha with rfl | ha
    · exact ⟨0, s, rfl, by rw [hc]; rfl⟩
    · cases hv : s.mem.get? p with
      | none => rw [hv] at ha; exact (List.not_mem_nil ha).elim
      | some v =>
        rw [hv] at ha
        obtain ⟨m, s', e, h⟩ := ih v (s.put k s.mem ⟨u.seen, u.mats, some (f v)⟩) (by rw [put_self]) ha
        refine ⟨m + 1, s', ?_, h⟩
        rw [List.replicate_succ, Scene.moves]
        simp only [Scene.move, hc, hv, Option.bind_some]
        exact e
  | write p v f ih =>
    rw [Steps.accesses] at ha
    rcases List.mem_cons.1 ha with rfl | ha
    · exact ⟨0, s, rfl, by rw [hc]; rfl⟩
    · cases hv : s.mem.get? p with
      | none => rw [hv] at ha; exact (List.not_mem_nil ha).elim
      | some w =>
        rw [hv] at ha
        obtain ⟨m, s', e, h⟩ := ih (s.put k ⟨s.mem.bufs.modify p.buf (·.set p.idx v)⟩
          ⟨u.seen, u.mats, some f⟩) (by rw [put_self]) ha
        refine ⟨m + 1, s', ?_, h⟩
        rw [List.replicate_succ, Scene.moves]
        simp only [Scene.move, hc, hv, Option.bind_some]
        exact e
  | alloc xs f ih =>
    rw [Steps.accesses] at ha
    obtain ⟨m, s', e, h⟩ := ih s.mem.bufs.length (s.put k ⟨s.mem.bufs ++ [xs]⟩
      ⟨u.seen, u.mats, some (f s.mem.bufs.length)⟩) (by rw [put_self]) ha
    refine ⟨m + 1, s', ?_, h⟩
    rw [List.replicate_succ, Scene.moves]
    simp only [Scene.move, hc, Option.bind_some]
    exact e

omit [DecidableEq ι] in
/-- As many operations as observations. -/
theorem alone_at {prog : List (Obs α) → Option (Op α)} {s : St α} {n : Nat}
    {x : List (Obs α) × St α} (hx : alone cfg K prog s n = some x) :
    alone cfg K prog s x.1.length = some x := by
  induction n generalizing x with
  | zero => cases hx; rfl
  | succ n ih =>
    rcases alone_length hx with h | h
    · rw [h]; exact hx
    · rw [alone, Option.bind_eq_some_iff] at hx
      obtain ⟨y, hy, hx⟩ := hx
      unfold aloneStep at hx
      cases hp : prog y.1 with
      | none => rw [hp] at hx; cases hx; exact ih hy
      | some op =>
        rw [hp] at hx
        simp only [Option.map_eq_some_iff] at hx
        obtain ⟨⟨r, m⟩, -, hx⟩ := hx
        have hl : y.1.length = n := (alone_length hy).resolve_right fun h => by rw [h.2] at hp; cases hp
        exfalso
        cases r with
        | none => cases hx; simp [hl] at h
        | some r => cases hx; simp [hl] at h

/-- A thread that begins and runs comes to each access to the given memory that it makes alone. -/
theorem OnTrack.comes_to (hK : Orderly K) (hC : Confined cfg K P mem R W)
    (hd : ∀ k n, alone cfg K (P.prog k) ⟨mem, P.mats k⟩ n ≠ none) {s : Scene ι α} {k : ι}
    (h : OnTrack cfg K P mem R W s k) (hs : s.task k = ⟨[], P.mats k, none⟩) {a : Bool × Loc}
    (ha : Accesses cfg K P mem k a) (hp : a.2.buf < mem.bufs.length) :
    ∃ m s', s.moves cfg K P (List.replicate m k) = some s' ∧ (s'.task k).about = some a ∧
      OnTrack cfg K P mem R W s' k ∧ ∀ l, l ≠ k → s'.task l = s.task l := by
  obtain ⟨N, x, op, hx, hop, ha⟩ := ha
  obtain ⟨m, e⟩ := alone_moves (cfg := cfg) (K := K) (P := P) k s hs N
  obtain ⟨s1, e1, ⟨ρ, n1, x1, mem1, hf⟩, -⟩ := h.moves hK hC hd m
  rw [e1] at e
  obtain ⟨y, hy, rfl⟩ := Option.map_eq_some_iff.1 e.symm
  have hseen : y.1 = x1.1 := by
    have := hf.seen
    rwa [put_self] at this
  -- it is where it is alone after as many operations
  have h1 := alone_at hf.reached
  have : x1 = x := by
    rcases alone_length hy with hl | hl
    · rw [← hseen, hl, hx] at h1
      cases h1
      rfl
    · have := alone_final h1 (hseen ▸ hl.2) (N - x1.1.length)
      rw [show x1.1.length + (N - x1.1.length) = N by rw [← hseen]; omega, hx] at this
      cases this
      rfl
  subst this
  -- it chooses the operation
  have hop' : P.prog k y.1 = some op := by rw [hseen]; exact hop
  have hidle := hf.idle (by rw [put_self])
  subst hidle
  rw [put_self] at hf
  have hf2 := hf.choose hK rfl hop' (hC k n1 x1 op hf.reached hop)
  have e2 : (s.put k y.2.mem ⟨y.1, y.2.mats, none⟩).move cfg K P k =
      some (s.put k y.2.mem ⟨y.1, y.2.mats, some (op.steps cfg K y.2.mats)⟩) := by
    simp only [Scene.move, put_self, hop']
    rw [put_put]
    rfl
  have ha2 : a ∈ (op.steps cfg K y.2.mats).accesses y.2.mem := by
    refine accesses_alike (n := mem.bufs.length) (Z := fun p => R k p ∨ W k p)
      (op_alike cfg hK hf.oneToOne hf.mats op) hf.oneToOne hf.same hf.range hf.agree ?_ ha hp
    rintro ⟨w, p⟩ hmem
    refine (hC k n1 x1 op hf.reached hop _ hmem).imp_right fun h => ?_
    cases w with
    | false => exact .inl h
    | true => exact .inr h
  obtain ⟨m2, s2, e3, hab⟩ := Spec.comes_to (cfg := cfg) (K := K) (P := P) k (op.steps cfg K y.2.mats)
    (s.put k y.2.mem ⟨y.1, y.2.mats, some (op.steps cfg K y.2.mats)⟩) ⟨y.1, y.2.mats, none⟩
    (by rw [put_self]) ha2
  have e4 : s.moves cfg K P (List.replicate (m + (1 + m2)) k) = some s2 := by
    rw [List.replicate_add, moves_append, e1, Option.bind_some, List.replicate_add,
      List.replicate_one, List.singleton_append, Scene.moves, e2, Option.bind_some, e3]
  obtain ⟨s3, e5, h3, o3⟩ := h.moves hK hC hd (m + (1 + m2))
  rw [e4] at e5
  cases e5
  exact ⟨_, s2, e4, hab, h3, o3⟩

/-! ### What a move changes -/

theorem move_changes {s s' : Scene ι α} {k : ι} (h : s.move cfg K P k = some s') :
    s.mem.bufs.length ≤ s'.mem.bufs.length ∧ ∀ p : Loc, p.buf < s.mem.bufs.length →
      ((s'.mem.get? p = s.mem.get? p ∨ (s.task k).about = some (true, p)) ∧
        ((s.mem.get? p).isSome → (s'.mem.get? p).isSome)) := by
  unfold Scene.move at h
  cases hc : (s.task k).cur with
  | none =>
    simp only [hc] at h
    cases ho : P.prog k (s.task k).seen with
    | none => simp only [ho] at h; cases h; exact ⟨le_refl _, fun _ _ => ⟨.inl rfl, id⟩⟩
    | some op => simp only [ho] at h; cases h; exact ⟨le_refl _, fun _ _ => ⟨.inl rfl, id⟩⟩
  | some c => cases c with
    | done y => cases y with
      | ok r => simp only [hc] at h; cases h; exact ⟨le_refl _, fun _ _ => ⟨.inl rfl, id⟩⟩
      | panic => simp only [hc] at h; cases h; exact ⟨le_refl _, fun _ _ => ⟨.inl rfl, id⟩⟩
      | ub => simp only [hc] at h; cases h
    | read q f =>
      simp only [hc, Option.bind_eq_some_iff] at h
      obtain ⟨v, -, h⟩ := h
      cases h
      exact ⟨le_refl _, fun _ _ => ⟨.inl rfl, id⟩⟩
    | write q v f =>
      simp only [hc, Option.bind_eq_some_iff] at h
      obtain ⟨u, -, h⟩ := h
      cases h
      refine ⟨by simp [Scene.put], fun p _ => ?_⟩
      simp only [Scene.put]
      rw [get?_modify]
      by_cases hq : p = q
      · subst hq
        exact ⟨.inr (by simp only [Task.about, hc]), fun h => by simpa using h⟩
      · rw [if_neg hq]
        exact ⟨.inl rfl, id⟩
    | alloc xs f =>
      simp only [hc] at h
      cases h
      refine ⟨by simp [Scene.put], fun p hp => ?_⟩
      simp only [Scene.put]
      rw [get?_append _ _ hp]
      exact ⟨.inl rfl, id⟩

theorem moves_defined {s s' : Scene ι α} {ks : List ι} (h : s.moves cfg K P ks = some s') :
    s.mem.bufs.length ≤ s'.mem.bufs.length ∧ ∀ p : Loc, p.buf < s.mem.bufs.length →
      (s.mem.get? p).isSome → (s'.mem.get? p).isSome := by
  induction ks generalizing s with
  | nil => cases h; exact ⟨le_refl _, fun _ _ => id⟩
  | cons k ks ih =>
    rw [Scene.moves] at h
    obtain ⟨s1, h1, h2⟩ := Option.bind_eq_some_iff.1 h
    obtain ⟨l1, c1⟩ := move_changes h1
    obtain ⟨l2, c2⟩ := ih h2
    exact ⟨l1.trans l2, fun p hp hs => c2 p (lt_of_lt_of_le hp l1) ((c1 p hp).2 hs)⟩

/-- Places that the thread has not been about to write to. -/
theorem moves_leave {s : Scene ι α} {k : ι} {T : Loc → Prop} (m : Nat) {s' : Scene ι α}
    (h : s.moves cfg K P (List.replicate m k) = some s')
    (hno : ∀ j < m, ∀ s1, s.moves cfg K P (List.replicate j k) = some s1 →
      ∀ p, T p → (s1.task k).about ≠ some (true, p)) {p : Loc} (hT : T p)
    (hp : p.buf < s.mem.bufs.length) :
    s.mem.bufs.length ≤ s'.mem.bufs.length ∧ s'.mem.get? p = s.mem.get? p := by
  induction m generalizing s' with
  | zero => cases h; exact ⟨le_refl _, rfl⟩
  | succ m ih =>
    rw [List.replicate_succ', moves_append, Option.bind_eq_some_iff] at h
    obtain ⟨s1, h1, h2⟩ := h
    rw [Scene.moves, Option.bind_eq_some_iff] at h2
    obtain ⟨s2, h2, h3⟩ := h2
    cases h3
    obtain ⟨l1, g1⟩ := ih h1 fun j hj => hno j (by omega)
    obtain ⟨l2, c2⟩ := move_changes h2
    refine ⟨l1.trans l2, ?_⟩
    rw [← g1]
    exact (c2 p (lt_of_lt_of_le hp l1)).1.resolve_right (hno m (by omega) s1 h1 p hT)

/-! ### Conflicting threads race -/

omit [DecidableEq ι] in
theorem OnTrack.start {s : Scene ι α} {k : ι} (hm : ∀ m ∈ P.mats k, LivesIn mem.bufs.length m)
    (hs : s.task k = ⟨[], P.mats k, none⟩) (hl : mem.bufs.length ≤ s.mem.bufs.length)
    (hg : ∀ p : Loc, p.buf < mem.bufs.length → R k p ∨ W k p → s.mem.get? p = mem.get? p) :
    OnTrack cfg K P mem R W s k := by
  refine ⟨fun b b' => b = b' ∧ b < mem.bufs.length, 0, ([], ⟨mem, P.mats k⟩), mem, ?_⟩
  rw [hs]
  constructor
  · rfl
  · rintro x y x' y' ⟨rfl, -⟩ ⟨rfl, -⟩; rfl
  · exact fun b hb => ⟨rfl, hb⟩
  · rintro b _ ⟨rfl, h⟩; exact ⟨lt_of_lt_of_le h hl, h⟩
  · exact le_refl _
  · rfl
  · exact List.forall₂_same.2 fun m h => matAlike_refl (fun b hb => ⟨rfl, hb⟩) (hm m h)
  · exact fun _ => rfl
  · exact fun c e => by cases e
  · rintro b _ i ⟨rfl, hb⟩ hz
    refine hg ⟨b, i⟩ hb (hz.resolve_left ?_)
    simp only
    omega

/-- Of two threads that conflict, one is led to its first write to a place of another, and then the
other to that place. -/
theorem conflict_race (hK : Orderly K) (hm : ∀ k, ∀ m ∈ P.mats k, LivesIn mem.bufs.length m)
    (hd : ∀ k n, alone cfg K (P.prog k) ⟨mem, P.mats k⟩ n ≠ none) (h : Conflict cfg K P mem) :
    ∃ ks s k l w p, (Scene.start P mem).moves cfg K P ks = some s ∧ k ≠ l ∧
      (s.task k).about = some (true, p) ∧ (s.task l).about = some (w, p) ∧
      (s.mem.get? p).isSome := by
  classical
  obtain ⟨k, l, w, p, hne, hp, hk, hl⟩ := h
  have hC := accesses_confined (cfg := cfg) (K := K) (P := P) (mem := mem)
  have hs : OnTrack cfg K P mem (Touches cfg K P mem false) (Touches cfg K P mem true) (Scene.start P mem) k :=
    OnTrack.start (hm k) rfl (le_refl _) fun _ _ _ => rfl
  -- places of other threads
  let T : Loc → Prop := fun p => p.buf < mem.bufs.length ∧ ∃ l w, l ≠ k ∧ Accesses cfg K P mem l (w, p)
  have ex : ∃ m, ∃ s, (Scene.start P mem).moves cfg K P (List.replicate m k) = some s ∧
      ∃ p, T p ∧ (s.task k).about = some (true, p) := by
    obtain ⟨m, s, e, ha, -⟩ := hs.comes_to hK hC hd rfl hk hp
    exact ⟨m, s, e, p, ⟨hp, l, w, hne.symm, hl⟩, ha⟩
  obtain ⟨s1, e1, p1, ⟨hp1, l1, w1, hne1, hl1⟩, ha1⟩ := Nat.find_spec ex
  have hleave := fun {q} hT hq => moves_leave (T := T) (p := q) (Nat.find ex) e1
    (fun j hj s e p hT ha => Nat.find_min ex hj ⟨s, e, p, hT, ha⟩) hT hq
  obtain ⟨s1', e1', hs1, ho1⟩ := hs.moves hK hC hd (Nat.find ex)
  rw [e1] at e1'
  cases e1'
  have hs2 : OnTrack cfg K P mem (Touches cfg K P mem false) (Touches cfg K P mem true) s1 l1 := by
    refine OnTrack.start (hm l1) (ho1 l1 hne1) (hleave ⟨hp1, l1, w1, hne1, hl1⟩ hp1).1 fun q hq hz => ?_
    refine (hleave ⟨hq, l1, ?_⟩ hq).2
    rcases hz with hz | hz
    · exact ⟨false, hne1, hz.2⟩
    · exact ⟨true, hne1, hz.2⟩
  obtain ⟨m2, s2, e2, ha2, hs2, ho2⟩ := hs2.comes_to hK hC hd (ho1 l1 hne1) hl1 hp1
  refine ⟨List.replicate (Nat.find ex) k ++ List.replicate m2 l1, s2, k, l1, w1, p1, ?_, hne1.symm, ?_, ha2, ?_⟩
  · rw [moves_append, e1, Option.bind_some, e2]
  · rw [ho2 k hne1.symm]
    exact ha1
  · -- the place exists, since the other thread can go on
    obtain ⟨s3, e3, -, -⟩ := hs2.move hK hC hd
    unfold Task.about at ha2
    unfold Scene.move at e3
    split at ha2
    · rename_i q f hc
      cases ha2
      simp only [hc, Option.bind_eq_some_iff] at e3
      obtain ⟨v, hv, -⟩ := e3
      rw [hv]; rfl
    · rename_i q v f hc
      cases ha2
      simp only [hc, Option.bind_eq_some_iff] at e3
      obtain ⟨v, hv, -⟩ := e3
      rw [hv]; rfl
    · cases ha2

end Householder.Spec
