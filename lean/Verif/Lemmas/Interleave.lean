import Verif.Lemmas.Alike
import Verif.Lemmas.Keeps

/-!
# Every schedule does for each thread what the thread does alone
-/

namespace Householder.Spec

open Steps Props

variable {ι α : Type}

/-- What one thread has done in the interleaved run, `ρ` renaming its allocations to those of the run
alone. -/
structure Following [Target] [Zero α] [One α] [Add α] [Mul α] (cfg : Cfg)
    (K : GemmArgs α → Steps α Unit) (prog : List (Obs α) → Option (Op α)) (s0 : St α)
    (R W : Loc → Prop) (mem : Mem α) (t : Task α) (ρ : Corr) (n : Nat) (x : List (Obs α) × St α)
    (mem' : Mem α) : Prop where
  reached : alone cfg K prog s0 n = some x
  oneToOne : OneToOne ρ
  same : ∀ b < s0.mem.bufs.length, ρ b b
  range : ∀ b b', ρ b b' → b < mem.bufs.length ∧ b' < mem'.bufs.length
  enough : s0.mem.bufs.length ≤ mem'.bufs.length
  seen : t.seen = x.1
  mats : MatsAlike ρ t.mats x.2.mats
  idle : t.cur = none → mem' = x.2.mem
  busy : ∀ c, t.cur = some c → ∃ op c', prog x.1 = some op ∧
    c'.finish mem' = (op.steps cfg K x.2.mats).finish x.2.mem ∧ Alike ResultAlike ρ c c' ∧
    Stays s0.mem.bufs.length R W (c'.accesses mem')
  agree : ∀ b b' i, ρ b b' → (s0.mem.bufs.length ≤ b' ∨ R ⟨b', i⟩ ∨ W ⟨b', i⟩) →
    mem.get? ⟨b, i⟩ = mem'.get? ⟨b', i⟩

theorem get?_modify (mem : Mem α) (p q : Loc) (v : α) :
    (Mem.mk (mem.bufs.modify p.buf (·.set p.idx v))).get? q =
      if q = p then (mem.get? p).map fun _ => v else mem.get? q := by
  obtain ⟨b, i⟩ := p
  obtain ⟨c, j⟩ := q
  simp only [Mem.get?, List.getElem?_modify, Loc.mk.injEq]
  by_cases hb : b = c
  · subst hb
    by_cases hi : i = j
    · subst hi
      cases mem.bufs[b]? with
      | none => simp
      | some xs => simp [List.getElem?_set_self', Function.const_def]
    · have hi' : ¬ j = i := fun e => hi e.symm
      cases mem.bufs[b]? with
      | none => simp [hi']
      | some xs => simp [hi', List.getElem?_set_ne hi]
  · have hb' : ¬ c = b := fun e => hb e.symm
    simp [hb, hb']

theorem get?_append (mem : Mem α) (xs : List α) {q : Loc} (h : q.buf < mem.bufs.length) :
    (Mem.mk (mem.bufs ++ [xs])).get? q = mem.get? q := by
  simp only [Mem.get?, List.getElem?_append_left h]

theorem get?_new (mem : Mem α) (xs : List α) (i : Nat) :
    (Mem.mk (mem.bufs ++ [xs])).get? ⟨mem.bufs.length, i⟩ = xs[i]? := by
  simp [Mem.get?]

variable [Target] [Zero α] [One α] [Add α] [Mul α] {cfg : Cfg} {K : GemmArgs α → Steps α Unit}

namespace Following

variable {prog : List (Obs α) → Option (Op α)} {s0 : St α} {R W : Loc → Prop} {mem : Mem α}
  {t : Task α} {ρ : Corr} {n : Nat} {x : List (Obs α) × St α} {mem' : Mem α}

theorem old (h : Following cfg K prog s0 R W mem t ρ n x mem') {b b' : Nat} (hb : ρ b b') :
    (b < s0.mem.bufs.length ↔ b' < s0.mem.bufs.length) ∧ (b < s0.mem.bufs.length → b = b') := by
  have key : b < s0.mem.bufs.length → b = b' := fun hl =>
    (h.oneToOne _ _ _ _ (h.same b hl) hb).1 rfl
  have key' : b' < s0.mem.bufs.length → b' = b := fun hl =>
    (h.oneToOne _ _ _ _ (h.same b' hl) hb).2 rfl
  exact ⟨⟨fun e => key e ▸ e, fun e => key' e ▸ e⟩, key⟩

/-- Another thread's move. -/
theorem away (h : Following cfg K prog s0 R W mem t ρ n x mem') {mem2 : Mem α}
    (hl : mem.bufs.length ≤ mem2.bufs.length)
    (hg : ∀ b b' i, ρ b b' → (s0.mem.bufs.length ≤ b' ∨ R ⟨b', i⟩ ∨ W ⟨b', i⟩) →
      mem2.get? ⟨b, i⟩ = mem.get? ⟨b, i⟩) :
    Following cfg K prog s0 R W mem2 t ρ n x mem' :=
  { h with
    range := fun b b' e => ⟨lt_of_lt_of_le (h.range b b' e).1 hl, (h.range b b' e).2⟩
    agree := fun b b' i e v => (hg b b' i e v).trans (h.agree b b' i e v) }

theorem choose (hK : Orderly K) (h : Following cfg K prog s0 R W mem t ρ n x mem') (hc : t.cur = none)
    {op : Op α} (ho : prog t.seen = some op)
    (hk : Stays s0.mem.bufs.length R W ((op.steps cfg K x.2.mats).accesses x.2.mem)) :
    Following cfg K prog s0 R W mem ⟨t.seen, t.mats, some (op.steps cfg K t.mats)⟩ ρ n x mem' :=
  { h with
    idle := fun e => by cases e
    busy := by
      rintro c ⟨⟩
      exact ⟨op, op.steps cfg K x.2.mats, h.seen ▸ ho, by rw [h.idle hc],
        op_alike cfg hK h.oneToOne h.mats op, h.idle hc ▸ hk⟩ }

theorem ended (h : Following cfg K prog s0 R W mem t ρ n x mem') {r : Obs α × List (Mat α)}
    (hc : t.cur = some (.done (.ok r))) :
    ∃ x', Following cfg K prog s0 R W mem ⟨t.seen ++ [r.1], t.mats ++ r.2, none⟩ ρ (n + 1) x' mem' := by
  obtain ⟨op, c', ho, hf, ha, hk⟩ := h.busy _ hc
  cases c' with
  | done y => cases y with
    | ok r' =>
      have hr : ResultAlike ρ r r' := ha
      refine ⟨(x.1 ++ [r'.1], ⟨mem', x.2.mats ++ r'.2⟩), { h with
        reached := ?_
        seen := ?_
        mats := List.rel_append h.mats hr.2
        idle := fun _ => rfl
        busy := fun c e => by cases e }⟩
      · rw [alone, h.reached]
        simp only [Option.bind_some, aloneStep, ho, ← hf, Steps.finish, Option.map_some]
      · rw [h.seen, hr.1]
    | _ => exact ha.elim
  | _ => exact ha.elim

theorem panicked (h : Following cfg K prog s0 R W mem t ρ n x mem')
    (hc : t.cur = some (.done .panic)) :
    ∃ x', Following cfg K prog s0 R W mem ⟨t.seen ++ [.panicked], t.mats, none⟩ ρ (n + 1) x' mem' := by
  obtain ⟨op, c', ho, hf, ha, hk⟩ := h.busy _ hc
  cases c' with
  | done y => cases y with
    | panic =>
      refine ⟨(x.1 ++ [.panicked], ⟨mem', x.2.mats⟩), { h with
        reached := ?_
        seen := ?_
        idle := fun _ => rfl
        busy := fun c e => by cases e }⟩
      · rw [alone, h.reached]
        simp only [Option.bind_some, aloneStep, ho, ← hf, Steps.finish, Option.map_some]
      · rw [h.seen]
    | _ => exact ha.elim
  | _ => exact ha.elim

theorem defined (h : Following cfg K prog s0 R W mem t ρ n x mem')
    (hd : alone cfg K prog s0 (n + 1) ≠ none) {op : Op α} (ho : prog x.1 = some op) :
    (op.steps cfg K x.2.mats).finish x.2.mem ≠ none := by
  intro e
  apply hd
  rw [alone, h.reached]
  simp only [Option.bind_some, aloneStep, ho, e, Option.map_none]

theorem not_ub (h : Following cfg K prog s0 R W mem t ρ n x mem')
    (hd : alone cfg K prog s0 (n + 1) ≠ none) : t.cur ≠ some (.done .ub) := by
  intro hc
  obtain ⟨op, c', ho, hf, ha, hk⟩ := h.busy _ hc
  cases c' with
  | done y => cases y with
    | ub => exact h.defined hd ho hf.symm
    | _ => exact ha.elim
  | _ => exact ha.elim

theorem reads (h : Following cfg K prog s0 R W mem t ρ n x mem')
    (hd : alone cfg K prog s0 (n + 1) ≠ none) {p : Loc} {f : α → Steps α (Obs α × List (Mat α))}
    (hc : t.cur = some (.read p f)) :
    (∃ b', ρ p.buf b' ∧ (s0.mem.bufs.length ≤ b' ∨ R ⟨b', p.idx⟩)) ∧ ∃ v, mem.get? p = some v ∧
      Following cfg K prog s0 R W mem ⟨t.seen, t.mats, some (f v)⟩ ρ n x mem' := by
  obtain ⟨op, c', ho, hf, ha, hk⟩ := h.busy _ hc
  cases c' with
  | read p' f' =>
    obtain ⟨hr, hi, ha⟩ := ha
    obtain ⟨hv, hk⟩ := hk.read
    have hp : (⟨p'.buf, p.idx⟩ : Loc) = p' := by rw [hi]
    have hg : mem.get? p = mem'.get? p' := by
      have := h.agree p.buf p'.buf p.idx hr (by rw [hp]; exact hv.imp_right .inl)
      rwa [hp] at this
    refine ⟨⟨p'.buf, hr, by rw [hp]; exact hv⟩, ?_⟩
    cases e : mem'.get? p' with
    | none =>
      refine absurd ?_ (h.defined hd ho)
      rw [← hf, Steps.finish, e]; rfl
    | some v =>
      refine ⟨v, hg.trans e, { h with
        idle := fun e => by cases e
        busy := ?_ }⟩
      · rintro c ⟨⟩
        refine ⟨op, f' v, ho, ?_, ha v, hk v e⟩
        rw [← hf, Steps.finish, e]; rfl
  | done y => cases y <;> exact ha.elim
  | _ => exact ha.elim

theorem writes (h : Following cfg K prog s0 R W mem t ρ n x mem')
    (hd : alone cfg K prog s0 (n + 1) ≠ none) {p : Loc} {v : α} {f : Steps α (Obs α × List (Mat α))}
    (hc : t.cur = some (.write p v f)) :
    (∃ b', ρ p.buf b' ∧ (s0.mem.bufs.length ≤ b' ∨ W ⟨b', p.idx⟩)) ∧ (∃ u, mem.get? p = some u) ∧
      ∃ mem2, Following cfg K prog s0 R W ⟨mem.bufs.modify p.buf (·.set p.idx v)⟩
        ⟨t.seen, t.mats, some f⟩ ρ n x mem2 := by
  obtain ⟨op, c', ho, hf, ha, hk⟩ := h.busy _ hc
  cases c' with
  | write p' v' f' =>
    obtain ⟨hr, hi, rfl, ha⟩ := ha
    obtain ⟨hv, hk⟩ := hk.write
    have hp : (⟨p'.buf, p.idx⟩ : Loc) = p' := by rw [hi]
    have hg : mem.get? p = mem'.get? p' := by
      have := h.agree p.buf p'.buf p.idx hr (by rw [hp]; exact hv.imp_right .inr)
      rwa [hp] at this
    refine ⟨⟨p'.buf, hr, by rw [hp]; exact hv⟩, ?_⟩
    cases e : mem'.get? p' with
    | none =>
      refine absurd ?_ (h.defined hd ho)
      rw [← hf, Steps.finish, e]; rfl
    | some u =>
      refine ⟨⟨u, hg.trans e⟩, ⟨mem'.bufs.modify p'.buf (·.set p'.idx v)⟩, { h with
        range := ?_
        enough := ?_
        idle := fun e => by cases e
        busy := ?_
        agree := ?_ }⟩
      · intro b b' hb
        simpa using h.range b b' hb
      · simpa using h.enough
      · rintro c ⟨⟩
        refine ⟨op, f', ho, ?_, ha, hk u e⟩
        rw [← hf, Steps.finish, e]; rfl
      · intro b b' i hb hs
        rw [get?_modify, get?_modify]
        have hiff : (⟨b, i⟩ : Loc) = p ↔ (⟨b', i⟩ : Loc) = p' :=
          LocAlike.eq_iff h.oneToOne (p := ⟨b, i⟩) (p' := ⟨b', i⟩) ⟨hb, rfl⟩ ⟨hr, hi⟩
        by_cases hq : (⟨b, i⟩ : Loc) = p
        · rw [if_pos hq, if_pos (hiff.1 hq), hg]
        · rw [if_neg hq, if_neg fun e => hq (hiff.2 e)]
          exact h.agree b b' i hb hs
  | done y => cases y <;> exact ha.elim
  | _ => exact ha.elim

theorem allocates (h : Following cfg K prog s0 R W mem t ρ n x mem') {xs : List α}
    {f : Nat → Steps α (Obs α × List (Mat α))} (hc : t.cur = some (.alloc xs f)) :
    ∃ mem2, Following cfg K prog s0 R W ⟨mem.bufs ++ [xs]⟩
        ⟨t.seen, t.mats, some (f mem.bufs.length)⟩
        (fun b b' => ρ b b' ∨ b = mem.bufs.length ∧ b' = mem'.bufs.length) n x mem2 := by
  obtain ⟨op, c', ho, hf, ha, hk⟩ := h.busy _ hc
  cases c' with
  | alloc xs' f' =>
    obtain ⟨rfl, ha⟩ := ha
    have h1 : ∀ b, ¬ ρ mem.bufs.length b := fun b e => by have := (h.range _ _ e).1; omega
    have h2 : ∀ b, ¬ ρ b mem'.bufs.length := fun b e => by have := (h.range _ _ e).2; omega
    refine ⟨⟨mem'.bufs ++ [xs]⟩, ?_⟩
    constructor
    · exact h.reached
    · exact h.oneToOne.extend h1 h2
    · exact fun b hb => .inl (h.same b hb)
    · rintro b b' (hb | ⟨rfl, rfl⟩)
      · have := h.range b b' hb
        simp only [List.length_append, List.length_singleton]
        omega
      · simp
    · have := h.enough
      simp only [List.length_append, List.length_singleton]
      omega
    · exact h.seen
    · exact h.mats.mono fun _ _ => .inl
    · exact fun e => by cases e
    · rintro c ⟨⟩
      refine ⟨op, f' mem'.bufs.length, ho, ?_, ha _ _ h1 h2, hk⟩
      rw [← hf, Steps.finish]
    · rintro b b' i (hb | ⟨rfl, rfl⟩) hs
      · have := h.range b b' hb
        rw [get?_append _ _ this.1, get?_append _ _ this.2]
        exact h.agree b b' i hb hs
      · rw [get?_new, get?_new]
  | done y => cases y <;> exact ha.elim
  | _ => exact ha.elim

end Following

/-- What all threads have done. -/
def Together (cfg : Cfg) (K : GemmArgs α → Steps α Unit) (P : Crew ι α) (mem : Mem α)
    (R W : ι → Loc → Prop) (s : Scene ι α) : Prop :=
  ∃ ρ : ι → Corr, (∀ k, ∃ n x mem',
      Following cfg K (P.prog k) ⟨mem, P.mats k⟩ (R k) (W k) s.mem (s.task k) (ρ k) n x mem') ∧
    ∀ k l b c c', k ≠ l → ρ k b c → ρ l b c' → b < mem.bufs.length

variable [DecidableEq ι] {P : Crew ι α} {mem : Mem α} {R W : ι → Loc → Prop}

omit [Target] [Zero α] [One α] [Add α] [Mul α] in
theorem put_self (s : Scene ι α) (k : ι) (m : Mem α) (t : Task α) : (s.put k m t).task k = t := by
  simp [Scene.put]

omit [Target] [Zero α] [One α] [Add α] [Mul α] in
theorem put_other (s : Scene ι α) {k l : ι} (h : l ≠ k) (m : Mem α) (t : Task α) :
    (s.put k m t).task l = s.task l := by
  simp [Scene.put, h]

/-- The thread moves, the memory stays. -/
theorem Together.only {s : Scene ι α} {k : ι} {t : Task α} {ρ : ι → Corr}
    (hρ : ∀ k, ∃ n x mem',
      Following cfg K (P.prog k) ⟨mem, P.mats k⟩ (R k) (W k) s.mem (s.task k) (ρ k) n x mem')
    (hx : ∀ k l b c c', k ≠ l → ρ k b c → ρ l b c' → b < mem.bufs.length)
    (h : ∃ n x mem', Following cfg K (P.prog k) ⟨mem, P.mats k⟩ (R k) (W k) s.mem t (ρ k) n x mem') :
    Together cfg K P mem R W (s.put k s.mem t) := by
  refine ⟨ρ, fun l => ?_, hx⟩
  by_cases hl : l = k
  · subst hl
    rw [put_self]; exact h
  · rw [put_other s hl]; exact hρ l

theorem Together.move (hK : Orderly K) (hA : ZonesApart R W) (hC : Confined cfg K P mem R W)
    (hd : ∀ k n, alone cfg K (P.prog k) ⟨mem, P.mats k⟩ n ≠ none) {s : Scene ι α}
    (h : Together cfg K P mem R W s) (k : ι) :
    ∃ s', s.move cfg K P k = some s' ∧ Together cfg K P mem R W s' := by
  obtain ⟨ρ, hρ, hx⟩ := h
  obtain ⟨n, x, mem', hf⟩ := hρ k
  unfold Scene.move
  cases hc : (s.task k).cur with
  | none =>
    simp only [hc]
    cases ho : P.prog k (s.task k).seen with
    | none => exact ⟨s, rfl, ρ, hρ, hx⟩
    | some op =>
      refine ⟨_, rfl, Together.only hρ hx ⟨n, x, mem', hf.choose hK hc ho ?_⟩⟩
      exact hC k n x op hf.reached (hf.seen ▸ ho)
  | some c => cases c with
    | done y => cases y with
      | ok r =>
        obtain ⟨x', hf⟩ := hf.ended hc
        exact ⟨_, by simp only [hc], Together.only hρ hx ⟨n + 1, x', mem', hf⟩⟩
      | panic =>
        obtain ⟨x', hf⟩ := hf.panicked hc
        exact ⟨_, by simp only [hc], Together.only hρ hx ⟨n + 1, x', mem', hf⟩⟩
      | ub => exact absurd hc (hf.not_ub (hd k (n + 1)))
    | read p f =>
      obtain ⟨-, v, hv, hf⟩ := hf.reads (hd k (n + 1)) hc
      exact ⟨_, by simp only [hc, hv, Option.bind_some], Together.only hρ hx ⟨n, x, mem', hf⟩⟩
    | write p v f =>
      obtain ⟨⟨b', hb, hw⟩, ⟨u, hu⟩, mem2, hf2⟩ := hf.writes (hd k (n + 1)) hc
      simp only [hc, hu, Option.bind_some]
      refine ⟨_, rfl, ρ, fun l => ?_, hx⟩
      by_cases hl : l = k
      · subst hl
        rw [put_self]; exact ⟨n, x, mem2, hf2⟩
      · rw [put_other s hl]
        obtain ⟨nl, xl, meml, hfl⟩ := hρ l
        refine ⟨nl, xl, meml, hfl.away (by simp [Scene.put]) fun c c' i hc' hs => ?_⟩
        simp only [Scene.put]
        rw [get?_modify, if_neg]
        rintro rfl
        have h0 := hx k l c b' c' (fun e => hl e.symm) hb hc'
        obtain rfl := (hf.old hb).2 h0
        obtain rfl := (hfl.old hc').2 h0
        rcases hw with hw | hw
        · exact absurd h0 (by simp only at hw ⊢; omega)
        have := hA k l ⟨c, i⟩ (fun e => hl e.symm) hw
        rcases hs with hs | hs | hs
        · exact absurd h0 (by simp only at hs ⊢; omega)
        · exact this.1 hs
        · exact this.2 hs
    | alloc xs f =>
      obtain ⟨mem2, hf2⟩ := hf.allocates hc
      simp only [hc]
      refine ⟨_, rfl, fun l => if l = k then (fun b b' => ρ k b b' ∨ b = s.mem.bufs.length ∧
        b' = mem'.bufs.length) else ρ l, fun l => ?_, ?_⟩
      · by_cases hl : l = k
        · subst hl
          rw [put_self]; beta_reduce; rw [if_pos rfl]; exact ⟨n, x, mem2, hf2⟩
        · rw [put_other s hl]; beta_reduce; rw [if_neg hl]
          obtain ⟨nl, xl, meml, hfl⟩ := hρ l
          refine ⟨nl, xl, meml, hfl.away (by simp [Scene.put]) fun c c' i hc' hs => ?_⟩
          exact get?_append _ _ (hfl.range _ _ hc').1
      · intro a b c d d' hne h1 h2
        have fresh : ∀ l d, ¬ ρ l s.mem.bufs.length d := by
          intro l d e
          obtain ⟨nl, xl, meml, hfl⟩ := hρ l
          have := (hfl.range _ _ e).1
          omega
        by_cases ha : a = k <;> by_cases hb : b = k
        · exact absurd (ha.trans hb.symm) hne
        · subst ha
          rw [if_pos rfl] at h1
          rw [if_neg hb] at h2
          rcases h1 with h1 | ⟨rfl, -⟩
          · exact hx a b c d d' hne h1 h2
          · exact absurd h2 (fresh b d')
        · subst hb
          rw [if_neg ha] at h1
          rw [if_pos rfl] at h2
          rcases h2 with h2 | ⟨rfl, -⟩
          · exact hx a b c d d' hne h1 h2
          · exact absurd h1 (fresh a d)
        · rw [if_neg ha] at h1
          rw [if_neg hb] at h2
          exact hx a b c d d' hne h1 h2

omit [DecidableEq ι] in
theorem Together.no_race (hA : ZonesApart R W)
    (hd : ∀ k n, alone cfg K (P.prog k) ⟨mem, P.mats k⟩ n ≠ none) {s : Scene ι α}
    (h : Together cfg K P mem R W s) : ¬ s.Race := by
  obtain ⟨ρ, hρ, hx⟩ := h
  have key : ∀ k w p, (s.task k).about = some (w, p) → ∃ b', ρ k p.buf b' ∧
      (p.buf < mem.bufs.length → (R k p ∨ W k p) ∧ (w = true → W k p)) := by
    intro k w p ha
    obtain ⟨n, x, mem', hf⟩ := hρ k
    unfold Task.about at ha
    split at ha
    · rename_i q f hc
      cases ha
      obtain ⟨⟨b', hb, hv⟩, -⟩ := hf.reads (hd k (n + 1)) hc
      refine ⟨b', hb, fun hl => ?_⟩
      obtain rfl := (hf.old hb).2 hl
      rcases hv with hv | hv
      · exact absurd hl (by simp only at hv ⊢; omega)
      · exact ⟨.inl hv, fun e => by cases e⟩
    · rename_i q v f hc
      cases ha
      obtain ⟨⟨b', hb, hv⟩, -⟩ := hf.writes (hd k (n + 1)) hc
      refine ⟨b', hb, fun hl => ?_⟩
      obtain rfl := (hf.old hb).2 hl
      rcases hv with hv | hv
      · exact absurd hl (by simp only at hv ⊢; omega)
      · exact ⟨.inr hv, fun _ => hv⟩
    · cases ha
  rintro ⟨k, l, w, w', p, hne, hk, hl, hw⟩
  obtain ⟨b, hb, h1⟩ := key k w p hk
  obtain ⟨c, hc, h2⟩ := key l w' p hl
  have h0 := hx k l _ _ _ hne hb hc
  obtain ⟨h1, h1w⟩ := h1 h0
  obtain ⟨h2, h2w⟩ := h2 h0
  rcases hw with hw | hw
  · have := hA k l p hne (h1w hw)
    exact h2.elim this.1 this.2
  · have := hA l k p hne.symm (h2w hw)
    exact h1.elim this.1 this.2

omit [DecidableEq ι] [Target] [Zero α] [One α] [Add α] [Mul α] in
theorem matAlike_refl {ρ : Corr} {m : Mat α} {n : Nat} (hρ : ∀ b < n, ρ b b) (h : LivesIn n m) :
    MatAlike ρ m m := by
  induction m with
  | base b => exact ⟨rfl, hρ _ h⟩
  | ref m ih => exact ih h
  | addition a b l iha ihb => exact ⟨iha h.1, ihb h.2, rfl⟩
  | scalarMult m s ih => exact ⟨ih h, rfl⟩

omit [DecidableEq ι] in
theorem Together.start (hm : ∀ k, ∀ m ∈ P.mats k, LivesIn mem.bufs.length m) :
    Together cfg K P mem R W (Scene.start P mem) := by
  refine ⟨fun _ b b' => b = b' ∧ b < mem.bufs.length, fun k => ⟨0, ([], ⟨mem, P.mats k⟩), mem, ?_⟩,
    fun _ _ _ _ _ _ h _ => h.2⟩
  constructor
  · rfl
  · rintro x y x' y' ⟨rfl, -⟩ ⟨rfl, -⟩; rfl
  · exact fun b hb => ⟨rfl, hb⟩
  · rintro b _ ⟨rfl, h⟩; exact ⟨h, h⟩
  · exact le_refl _
  · rfl
  · exact List.forall₂_same.2 fun m h => matAlike_refl (fun b hb => ⟨rfl, hb⟩) (hm k m h)
  · exact fun _ => rfl
  · exact fun c e => by cases e
  · rintro b _ i ⟨rfl, -⟩ _; rfl

theorem Together.moves (hK : Orderly K) (hA : ZonesApart R W) (hC : Confined cfg K P mem R W)
    (hd : ∀ k n, alone cfg K (P.prog k) ⟨mem, P.mats k⟩ n ≠ none) {s : Scene ι α}
    (h : Together cfg K P mem R W s) (ks : List ι) :
    ∃ s', s.moves cfg K P ks = some s' ∧ Together cfg K P mem R W s' := by
  induction ks generalizing s with
  | nil => exact ⟨s, rfl, h⟩
  | cons k ks ih =>
    obtain ⟨s1, h1, t1⟩ := h.move hK hA hC hd k
    obtain ⟨s2, h2, t2⟩ := ih t1
    exact ⟨s2, by rw [Scene.moves, h1]; exact h2, t2⟩

/-! ### What the values show -/

section

variable {ρ : Corr} {n : Nat} {R : Loc → Prop} {mem0 mem mem' : Mem α} {dim : Nat × Nat}

omit [Target] [Zero α] [One α] [Add α] [Mul α] in
theorem data_shows (ha : ∀ b b' i, ρ b b' → (n ≤ b' ∨ R ⟨b', i⟩) → mem.get? ⟨b, i⟩ = mem'.get? ⟨b', i⟩)
    {b b' : BaseMatrix} (h : BaseAlike ρ b b') {k : Nat}
    (hz : ∀ p, b'.data.get_unchecked_mut k = .ok p → n ≤ p.buf ∨ R p) :
    b.data.get_unchecked mem k = b'.data.get_unchecked mem' k := by
  have hd : b'.data = b.data.moved b'.data.buf := congrArg BaseMatrix.data h.1
  have hl : b'.data.len = b.data.len := by rw [hd]; rfl
  have ho : b'.data.off = b.data.off := by rw [hd]; rfl
  unfold Container.get_unchecked
  unfold Container.get_unchecked_mut at hz
  rw [hl, ho]
  rw [hl, ho] at hz
  split
  · rename_i hk
    rw [if_pos hk] at hz
    unfold Mem.read
    rw [ha _ _ _ h.2 (hz _ rfl)]
  · rfl

omit [Zero α] [One α] in
theorem shows_unchecked (cfg : Cfg)
    (ha : ∀ b b' i, ρ b b' → (n ≤ b' ∨ R ⟨b', i⟩) → mem.get? ⟨b, i⟩ = mem'.get? ⟨b', i⟩)
    {m m' : Mat α} (h : MatAlike ρ m m') (hz : InZone n R mem0 dim m') {r c : Nat}
    (hr : r < dim.1 ∧ c < dim.2) : m.get_unchecked cfg mem r c = m'.get_unchecked cfg mem' r c := by
  induction m generalizing m' with
  | base b => cases m' with
    | base b' =>
      have hl : b'.layout = b.layout := by rw [h.1]; rfl
      show b.get_unchecked cfg mem r c = b'.get_unchecked cfg mem' r c
      unfold BaseMatrix.get_unchecked
      rw [hl]
      cases e : b.layout.convert_2d_raw cfg r c with
      | ok k =>
        refine data_shows ha h fun p hp => hz.at2 (cfg := cfg) hr ?_
        unfold BaseMatrix.get_unchecked_mut; rw [hl, e]; exact hp
      | _ => rfl
    | _ => exact h.elim
  | ref m ih => cases m' with
    | ref m' => exact ih (m' := m') h hz
    | _ => exact h.elim
  | addition a b l iha ihb => cases m' with
    | addition a' b' l' =>
      simp only [Mat.get_unchecked, iha (m' := a') h.1 hz.1, ihb (m' := b') h.2.1 hz.2]
    | _ => exact h.elim
  | scalarMult m s ih => cases m' with
    | scalarMult m' s' =>
      obtain ⟨h, rfl⟩ := h
      simp only [Mat.get_unchecked, ih (m' := m') h hz]
    | _ => exact h.elim

omit [Zero α] [One α] in
theorem shows1d_unchecked (cfg : Cfg)
    (ha : ∀ b b' i, ρ b b' → (n ≤ b' ∨ R ⟨b', i⟩) → mem.get? ⟨b, i⟩ = mem'.get? ⟨b', i⟩)
    {m m' : Mat α} (h : MatAlike ρ m m') (hz : InZone n R mem0 dim m') {k : Nat}
    (hk : k < dim.1 * dim.2) : m.get1d_unchecked cfg mem k = m'.get1d_unchecked cfg mem' k := by
  induction m generalizing m' with
  | base b => cases m' with
    | base b' =>
      have hl : b'.layout = b.layout := by rw [h.1]; rfl
      show b.get1d_unchecked cfg mem k = b'.get1d_unchecked cfg mem' k
      unfold BaseMatrix.get1d_unchecked
      rw [hl]
      cases e : b.layout.convert_1d_raw cfg k with
      | ok k =>
        refine data_shows ha h fun p hp => hz.at1 (cfg := cfg) hk ?_
        unfold BaseMatrix.get1d_unchecked_mut; rw [hl, e]; exact hp
      | _ => rfl
    | _ => exact h.elim
  | ref m ih => cases m' with
    | ref m' => exact ih (m' := m') h hz
    | _ => exact h.elim
  | addition a b l iha ihb => cases m' with
    | addition a' b' l' =>
      simp only [Mat.get1d_unchecked, iha (m' := a') h.1 hz.1, ihb (m' := b') h.2.1 hz.2]
    | _ => exact h.elim
  | scalarMult m s ih => cases m' with
    | scalarMult m' s' =>
      obtain ⟨h, rfl⟩ := h
      simp only [Mat.get1d_unchecked, ih (m' := m') h hz]
    | _ => exact h.elim

omit [Zero α] [One α] in
/-- Values that correspond show the same elements. -/
theorem shows (cfg : Cfg)
    (ha : ∀ b b' i, ρ b b' → (n ≤ b' ∨ R ⟨b', i⟩) → mem.get? ⟨b, i⟩ = mem'.get? ⟨b', i⟩)
    {m m' : Mat α} (h : MatAlike ρ m m') (hz : Kept n R mem0 m') :
    m.layout = m'.layout ∧ (∀ r c, m.get cfg mem r c = m'.get cfg mem' r c) ∧
      ∀ k, m.get1d cfg mem k = m'.get1d cfg mem' k := by
  have hl : m'.layout = m.layout := h.layout.1
  refine ⟨hl.symm, fun r c => ?_, fun k => ?_⟩
  · unfold Mat.get assert_dimension
    rw [hl]
    by_cases h1 : r < m.layout.dim.1
    · by_cases h2 : c < m.layout.dim.2
      · rw [shows_unchecked cfg ha h hz (by rw [hl]; exact ⟨h1, h2⟩)]
      · simp only [Out.assert_neg h2, Out.assert_pos h1]; rfl
    · simp only [Out.assert_neg h1]; rfl
  · unfold Mat.get1d assert_dimension1d
    rw [hl]
    cases e : m.layout.number_of_elements cfg with
    | ok w =>
      by_cases hk : k < w
      · simp only [Out.bind_ok, Out.assert_pos hk]
        exact shows1d_unchecked cfg ha h hz (by
          rw [hl]; exact lt_of_lt_of_le hk (number_of_elements_le e))
      · simp only [Out.bind_ok, Out.assert_neg hk]; rfl
    | _ => rfl

end

omit [Target] [Zero α] [One α] [Add α] [Mul α] in
theorem forall₂_kept {A B : Type} {r : A → B → Prop} {p : B → Prop} {l : List A} {u : List B}
    (h : List.Forall₂ r l u) (hp : ∀ b ∈ u, p b) : List.Forall₂ (fun a b => r a b ∧ p b) l u := by
  induction h with
  | nil => exact .nil
  | cons h _ ih => exact .cons ⟨h, hp _ (by simp)⟩ (ih fun b hb => hp b (by simp [hb]))

/-- A thread that stays in its zones alone, along its whole run. -/
theorem alone_kept (hK : Orderly K) {prog : List (Obs α) → Option (Op α)} {ms : List (Mat α)}
    {mem mem0 : Mem α} {R W : Loc → Prop} (hz : ∀ m ∈ ms, Kept mem.bufs.length R mem0 m)
    (ho : ∀ n x op, alone cfg K prog ⟨mem, ms⟩ n = some x → prog x.1 = some op →
      (∀ m ∈ x.2.mats, Kept mem.bufs.length R mem0 m) →
      op.Minds mem.bufs.length R W mem0 x.2.mats) (n : Nat) {x : List (Obs α) × St α}
    (hx : alone cfg K prog ⟨mem, ms⟩ n = some x) :
    mem.bufs.length ≤ x.2.mem.bufs.length ∧ ∀ m ∈ x.2.mats, Kept mem.bufs.length R mem0 m := by
  induction n generalizing x with
  | zero => cases hx; exact ⟨le_refl _, hz⟩
  | succ n ih =>
    rw [alone, Option.bind_eq_some_iff] at hx
    obtain ⟨y, hy, hx⟩ := hx
    obtain ⟨hl, hk⟩ := ih hy
    unfold aloneStep at hx
    split at hx
    · cases hx; exact ⟨hl, hk⟩
    · rename_i op hop
      obtain ⟨h1, h2⟩ := ho n y op hy hop hk
      simp only [Option.map_eq_some_iff] at hx
      obtain ⟨⟨r, mem'⟩, hf, hx⟩ := hx
      have hq := (op_keeps cfg hK hk op h1 h2).finish hl hf
      cases r with
      | none => cases hx; exact ⟨hq.1, hk⟩
      | some r =>
        cases hx
        refine ⟨hq.1, fun m hm => ?_⟩
        rcases List.mem_append.1 hm with hm | hm
        · exact hk m hm
        · exact hq.2 r rfl m hm

omit [DecidableEq ι] [Zero α] [One α] [Add α] [Mul α] in
/-- In an empty memory only windows are in zones. -/
theorem covers_of_inZone {n : Nat} {R : Loc → Prop} {dim : Nat × Nat} {m : Mat α}
    (h : InZone n R ⟨[]⟩ dim m) : ∀ q, Covers m q → n ≤ q.buf ∨ R q := by
  induction m with
  | base b =>
    rcases h with h | ⟨h, -⟩
    · exact h
    · intro q hq
      have hw := h.container.window
      obtain ⟨-, h1, h2⟩ := hq
      simp [Mem.size] at hw
      omega
  | ref m ih => exact ih h
  | addition a b l iha ihb => exact fun q hq => hq.elim (iha h.1 q) (ihb h.2 q)
  | scalarMult m s ih => exact ih h

/-- Threads in their zones. -/
theorem zones_run (hK : Orderly K) (mem0 : Mem α)
    (hm : ∀ k, ∀ m ∈ P.mats k, LivesIn mem.bufs.length m)
    (hd : ∀ k n, alone cfg K (P.prog k) ⟨mem, P.mats k⟩ n ≠ none)
    (hA : ZonesApart R W) (hz : ∀ k, ∀ m ∈ P.mats k, Kept mem.bufs.length (R k) mem0 m)
    (ho : ∀ k n x op, alone cfg K (P.prog k) ⟨mem, P.mats k⟩ n = some x → P.prog k x.1 = some op →
      (∀ m ∈ x.2.mats, Kept mem.bufs.length (R k) mem0 m) →
      op.Minds mem.bufs.length (R k) (W k) mem0 x.2.mats) (ks : List ι) :
    RunsAsAlone cfg K P mem ks := by
  have hkept := fun k n x => alone_kept (cfg := cfg) hK (hz k) (ho k) n (x := x)
  have hC : Confined cfg K P mem R W := fun k n x op hx hop => by
    have hk := (hkept k n x hx).2
    obtain ⟨h1, h2⟩ := ho k n x op hx hop hk
    exact (op_keeps cfg hK hk op h1 h2).stays (hkept k n x hx).1
  obtain ⟨s, e, h⟩ := (Together.start (cfg := cfg) (K := K) (R := R) (W := W) hm).moves hK hA hC hd ks
  refine ⟨s, e, h.no_race hA hd, fun k => ?_⟩
  obtain ⟨ρ, hρ, -⟩ := h
  obtain ⟨n, x, mem', hf⟩ := hρ k
  refine ⟨n, x, hf.reached, hf.seen, fun hc => ?_⟩
  have hi := hf.idle hc
  subst hi
  refine List.Forall₂.imp (fun m m' h => ?_) (forall₂_kept hf.mats (hkept k n x hf.reached).2)
  exact shows cfg (fun b b' i hb hs => hf.agree b b' i hb (hs.imp_right .inl)) h.1 h.2

/-- The hypotheses of `zones_run`. -/
def Zoned (cfg : Cfg) (K : GemmArgs α → Steps α Unit) (P : Crew ι α) (mem : Mem α) : Prop :=
  ∃ (R W : ι → Loc → Prop) (mem0 : Mem α),
    (∀ k, ∀ m ∈ P.mats k, LivesIn mem.bufs.length m) ∧
    (∀ k n, alone cfg K (P.prog k) ⟨mem, P.mats k⟩ n ≠ none) ∧
    ZonesApart R W ∧ (∀ k, ∀ m ∈ P.mats k, Kept mem.bufs.length (R k) mem0 m) ∧
    ∀ k n x op, alone cfg K (P.prog k) ⟨mem, P.mats k⟩ n = some x → P.prog k x.1 = some op →
      (∀ m ∈ x.2.mats, Kept mem.bufs.length (R k) mem0 m) →
      op.Minds mem.bufs.length (R k) (W k) mem0 x.2.mats

theorem Zoned.run (hK : Orderly K) (h : Zoned cfg K P mem) (ks : List ι) : RunsAsAlone cfg K P mem ks := by
  obtain ⟨R, W, mem0, hm, hd, hA, hz, ho⟩ := h
  exact zones_run hK mem0 hm hd hA hz ho ks

/-- The rest of a run that has finished. -/
theorem alone_final {prog : List (Obs α) → Option (Op α)} {s : St α} {n : Nat}
    {x : List (Obs α) × St α} (hx : alone cfg K prog s n = some x) (hp : prog x.1 = none) (j : Nat) :
    alone cfg K prog s (n + j) = some x := by
  induction j with
  | zero => exact hx
  | succ j ih =>
    rw [← Nat.add_assoc, alone, ih]
    simp only [Option.bind_some, aloneStep, hp]

theorem alone_defined {prog : List (Obs α) → Option (Op α)} {s : St α} {n : Nat}
    {x : List (Obs α) × St α} (hx : alone cfg K prog s n = some x) (hp : prog x.1 = none) (j : Nat) :
    alone cfg K prog s j ≠ none := by
  have down : ∀ i j, alone cfg K prog s j = none → alone cfg K prog s (j + i) = none := by
    intro i j h
    induction i with
    | zero => exact h
    | succ i ih => rw [← Nat.add_assoc, alone, ih]; rfl
  intro h
  have h1 := down n j h
  rw [Nat.add_comm, alone_final hx hp j] at h1
  cases h1

end Householder.Spec
