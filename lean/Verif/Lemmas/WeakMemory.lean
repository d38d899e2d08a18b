import Verif.Spec.WeakMemory
import Verif.Lemmas.Interleave

/-!
# Whatever happens, each thread does what it does alone
-/

namespace Householder.Spec

open Steps Props

variable {ι α : Type}

variable [Target] [Zero α] [One α] [Add α] [Mul α] {cfg : Cfg} {K : GemmArgs α → Steps α Unit}

/-- What all threads have done; `ρ` renames the allocations of each. -/
structure Spread (cfg : Cfg) (K : GemmArgs α → Steps α Unit) (P : Crew ι α) (mem : Mem α)
    (R W : ι → Loc → Prop) (ρ : ι → Corr) (w : Weak ι α) : Prop where
  follow : ∀ k, ∃ n x mem',
    Following cfg K (P.prog k) ⟨mem, P.mats k⟩ (R k) (W k) (w.view k) (w.task k) (ρ k) n x mem'
  apart : ∀ k l b c c', k ≠ l → ρ k b c → ρ l b c' → b < mem.bufs.length
  length : ∀ k l, (w.view k).bufs.length = (w.view l).bufs.length
  stores : ∀ s ∈ w.stores, (∃ c, ρ s.maker s.place.buf c) ∧
    (s.place.buf < mem.bufs.length → W s.maker s.place)
  past : ∀ a ∈ w.past, (∃ c, ρ a.1 a.2.2.buf c) ∧
    (a.2.2.buf < mem.bufs.length → (R a.1 a.2.2 ∨ W a.1 a.2.2) ∧ (a.2.1 = true → W a.1 a.2.2))

variable {P : Crew ι α} {mem : Mem α} {R W : ι → Loc → Prop} {ρ : ι → Corr} {w : Weak ι α}

theorem Spread.start (hm : ∀ k, ∀ m ∈ P.mats k, LivesIn mem.bufs.length m) :
    Spread cfg K P mem R W (fun _ b b' => b = b' ∧ b < mem.bufs.length) (Weak.start P mem) := by
  refine ⟨fun k => ⟨0, ([], ⟨mem, P.mats k⟩), mem, ?_⟩, fun _ _ _ _ _ _ h _ => h.2, fun _ _ => rfl,
    fun _ h => (List.not_mem_nil h).elim, fun _ h => (List.not_mem_nil h).elim⟩
  constructor
  · rfl
  · rintro x y x' y' ⟨rfl, -⟩ ⟨rfl, -⟩; rfl
  · exact fun b hb => ⟨rfl, hb⟩
  · rintro b _ ⟨rfl, h⟩; exact ⟨h, h⟩
  · exact le_refl _
  · rfl
  · exact List.forall₂_same.2 fun m h => matAlike_refl (fun b hb => ⟨rfl, hb⟩) (hm k m h)
  · exact fun _ => rfl
  · exact fun c e => by cases e
  · rintro b _ i ⟨rfl, -⟩ _; rfl

theorem Spread.no_race (hA : ZonesApart R W) (h : Spread cfg K P mem R W ρ w) : ¬ w.Race := by
  rintro ⟨k, l, b, b', p, hne, hk, hl, hw⟩
  obtain ⟨⟨c, hc⟩, h1⟩ := h.past _ hk
  obtain ⟨⟨c', hc'⟩, h2⟩ := h.past _ hl
  have h0 := h.apart k l _ _ _ hne hc hc'
  obtain ⟨h1, h1w⟩ := h1 h0
  obtain ⟨h2, h2w⟩ := h2 h0
  rcases hw with hw | hw
  · have := hA k l p hne (h1w hw)
    exact h2.elim this.1 this.2
  · have := hA l k p hne.symm (h2w hw)
    exact h1.elim this.1 this.2

variable [DecidableEq ι]

omit [Target] [Zero α] [One α] [Add α] [Mul α] in
theorem weak_put_self (w : Weak ι α) (k : ι) (t : Task α) : (w.put k t).task k = t := by
  simp [Weak.put]

omit [Target] [Zero α] [One α] [Add α] [Mul α] in
theorem weak_put_other (w : Weak ι α) {k l : ι} (h : l ≠ k) (t : Task α) :
    (w.put k t).task l = w.task l := by
  simp [Weak.put, h]

omit [Target] [Zero α] [One α] [Add α] [Mul α] in
theorem weak_see_length (w : Weak ι α) (k l : ι) (p : Loc) (v : α) :
    ((w.see k p v).view l).bufs.length = (w.view l).bufs.length := by
  simp only [Weak.see]
  split <;> simp

/-- The thread moves, the views stay, one access may have been made. -/
theorem Spread.only {k : ι} {t : Task α} (h : Spread cfg K P mem R W ρ w)
    (hf : ∃ n x mem', Following cfg K (P.prog k) ⟨mem, P.mats k⟩ (R k) (W k) (w.view k) t (ρ k) n x mem')
    {past : List (ι × Bool × Loc)}
    (hp : ∀ a ∈ past, a ∈ w.past ∨ (∃ c, ρ a.1 a.2.2.buf c) ∧
      (a.2.2.buf < mem.bufs.length → (R a.1 a.2.2 ∨ W a.1 a.2.2) ∧ (a.2.1 = true → W a.1 a.2.2))) :
    Spread cfg K P mem R W ρ { w.put k t with past := past } := by
  refine ⟨fun l => ?_, h.apart, h.length, h.stores, fun a ha => (hp a ha).elim (h.past a) id⟩
  by_cases hl : l = k
  · subst hl
    show ∃ n x mem', Following _ _ _ _ _ _ (w.view l) ((w.put l t).task l) _ n x mem'
    rw [weak_put_self]; exact hf
  · show ∃ n x mem', Following _ _ _ _ _ _ (w.view l) ((w.put k t).task l) _ n x mem'
    rw [weak_put_other w hl]; exact h.follow l

/-- A store of one thread reaches another. -/
theorem Spread.see (hA : ZonesApart R W) (h : Spread cfg K P mem R W ρ w) {k l : ι} (hne : l ≠ k)
    {p : Loc} {v : α} (ho : ∃ c, ρ l p.buf c) (hw : p.buf < mem.bufs.length → W l p) :
    Spread cfg K P mem R W ρ (w.see k p v) := by
  refine ⟨fun j => ?_, h.apart, fun i j => ?_, h.stores, h.past⟩
  · by_cases hj : j = k
    · subst hj
      obtain ⟨n, x, mem', hf⟩ := h.follow j
      refine ⟨n, x, mem', hf.away (weak_see_length w j j p v).ge fun c c' i hc hs => ?_⟩
      simp only [Weak.see, if_pos]
      rw [get?_modify, if_neg]
      rintro rfl
      obtain ⟨d, hd⟩ := ho
      have h0 := h.apart l j c d c' hne hd hc
      obtain rfl := (hf.old hc).2 h0
      have := hA l j ⟨c, i⟩ hne (hw h0)
      rcases hs with hs | hs | hs
      · exact absurd h0 (by simp only at hs ⊢; omega)
      · exact this.1 hs
      · exact this.2 hs
    · have : (w.see k p v).view j = w.view j := by simp [Weak.see, hj]
      rw [this]
      exact h.follow j
  · rw [weak_see_length, weak_see_length]
    exact h.length i j

theorem Spread.move (hK : Orderly K) (hC : Confined cfg K P mem R W)
    (hd : ∀ k n, alone cfg K (P.prog k) ⟨mem, P.mats k⟩ n ≠ none)
    (h : Spread cfg K P mem R W ρ w) (k : ι) :
    ∃ w' ρ', w.move cfg K P k = some w' ∧ Spread cfg K P mem R W ρ' w' ∧
      (∀ l b c, ρ' l b c → b < (w.view l).bufs.length → ρ l b c) ∧
      ∀ l, (w.view l).bufs.length ≤ (w'.view l).bufs.length := by
  obtain ⟨n, x, mem', hf⟩ := h.follow k
  unfold Weak.move
  cases hc : (w.task k).cur with
  | none =>
    simp only [hc]
    cases ho : P.prog k (w.task k).seen with
    | none => exact ⟨w, ρ, rfl, h, fun _ _ _ h _ => h, fun _ => le_refl _⟩
    | some op =>
      refine ⟨_, ρ, rfl, h.only (past := w.past) ⟨n, x, mem', hf.choose hK hc ho ?_⟩ fun _ => .inl,
        fun _ _ _ h _ => h, fun _ => le_refl _⟩
      exact hC k n x op hf.reached (hf.seen ▸ ho)
  | some c => cases c with
    | done y => cases y with
      | ok r =>
        obtain ⟨x', hf⟩ := hf.ended hc
        exact ⟨_, ρ, by simp only [hc]; rfl, h.only (past := w.past) ⟨n + 1, x', mem', hf⟩ fun _ => .inl,
          fun _ _ _ h _ => h, fun _ => le_refl _⟩
      | panic =>
        obtain ⟨x', hf⟩ := hf.panicked hc
        exact ⟨_, ρ, by simp only [hc]; rfl, h.only (past := w.past) ⟨n + 1, x', mem', hf⟩ fun _ => .inl,
          fun _ _ _ h _ => h, fun _ => le_refl _⟩
      | ub => exact absurd hc (hf.not_ub (hd k (n + 1)))
    | read p f =>
      obtain ⟨⟨b', hb, hv⟩, v, hv', hf2⟩ := hf.reads (hd k (n + 1)) hc
      simp only [hc, hv', Option.bind_some]
      refine ⟨_, ρ, rfl, h.only ⟨n, x, mem', hf2⟩ fun a ha => ?_,
        fun _ _ _ h _ => h, fun _ => le_refl _⟩
      rcases List.mem_append.1 ha with ha | ha
      · exact .inl ha
      · obtain rfl := List.mem_singleton.1 ha
        refine .inr ⟨⟨b', hb⟩, fun h0 => ⟨.inl ?_, fun e => by cases e⟩⟩
        obtain rfl := (hf.old hb).2 h0
        exact hv.resolve_left fun e => absurd h0 (by simp only at e ⊢; omega)
    | write p v f =>
      obtain ⟨⟨b', hb, hv⟩, ⟨u, hu⟩, mem2, hf2⟩ := hf.writes (hd k (n + 1)) hc
      have hw : p.buf < mem.bufs.length → W k p := fun h0 => by
        obtain rfl := (hf.old hb).2 h0
        exact hv.resolve_left fun e => absurd h0 (by simp only at e ⊢; omega)
      simp only [hc, hu, Option.bind_some]
      refine ⟨_, ρ, rfl, ⟨fun l => ?_, h.apart, fun i j => ?_,
        fun s hs => ?_, fun a ha => ?_⟩, fun _ _ _ h _ => h, fun l => ?_⟩
      · by_cases hl : l = k
        · subst hl
          refine ⟨n, x, mem2, ?_⟩
          simpa only [Weak.put, Weak.see, if_pos] using hf2
        · simpa only [Weak.put, Weak.see, if_neg hl] using h.follow l
      · show ((w.see k p v).view i).bufs.length = ((w.see k p v).view j).bufs.length
        rw [weak_see_length, weak_see_length]
        exact h.length i j
      · rcases List.mem_append.1 hs with hs | hs
        · exact h.stores s hs
        · obtain rfl := List.mem_singleton.1 hs
          exact ⟨⟨b', hb⟩, hw⟩
      · rcases List.mem_append.1 ha with ha | ha
        · exact h.past a ha
        · obtain rfl := List.mem_singleton.1 ha
          exact ⟨⟨b', hb⟩, fun h0 => ⟨.inr (hw h0), fun _ => hw h0⟩⟩
      · exact (weak_see_length w k l p v).ge
    | alloc xs f =>
      obtain ⟨mem2, hf2⟩ := hf.allocates hc
      have fresh : ∀ l d, ¬ ρ l (w.view k).bufs.length d := by
        intro l d e
        obtain ⟨nl, xl, meml, hfl⟩ := h.follow l
        have := (hfl.range _ _ e).1
        rw [h.length l k] at this
        omega
      have grow : ∀ l b c, ρ l b c → (if l = k then (fun b b' => ρ k b b' ∨
          b = (w.view k).bufs.length ∧ b' = mem'.bufs.length) else ρ l) b c := by
        intro l b c e
        split
        · rename_i hl
          subst hl
          exact .inl e
        · exact e
      have back : ∀ l b c, (if l = k then (fun b b' => ρ k b b' ∨
          b = (w.view k).bufs.length ∧ b' = mem'.bufs.length) else ρ l) b c → ρ l b c ∨
          l = k ∧ b = (w.view k).bufs.length := by
        intro l b c e
        split at e
        · rename_i hl
          subst hl
          exact e.imp_right fun e => ⟨rfl, e.1⟩
        · exact .inl e
      refine ⟨_, fun l => if l = k then (fun b b' => ρ k b b' ∨ b = (w.view k).bufs.length ∧
        b' = mem'.bufs.length) else ρ l, by simp only [hc]; rfl,
        ⟨fun l => ?_, ?_, fun i j => ?_, fun s hs => ?_, fun a ha => ?_⟩, fun l b c e hlt => ?_,
        fun l => by simp⟩
      · by_cases hl : l = k
        · subst hl
          refine ⟨n, x, mem2, ?_⟩
          simpa only [weak_put_self, if_pos] using hf2
        · obtain ⟨nl, xl, meml, hfl⟩ := h.follow l
          refine ⟨nl, xl, meml, ?_⟩
          simp only [weak_put_other w hl, if_neg hl]
          exact hfl.away (by simp) fun c c' i hc' hs => get?_append _ _ (hfl.range _ _ hc').1
      · intro a b c d d' hne h1 h2
        rcases back a c d h1 with h1 | ⟨ea, ec⟩
        · rcases back b c d' h2 with h2 | ⟨eb, ec⟩
          · exact h.apart a b c d d' hne h1 h2
          · exact absurd (ec ▸ h1) (fresh a d)
        · rcases back b c d' h2 with h2 | ⟨eb, -⟩
          · exact absurd (ec ▸ h2) (fresh b d')
          · exact absurd (ea.trans eb.symm) hne
      · simp only [List.length_append, List.length_singleton]
        rw [h.length i j]
      · obtain ⟨⟨c, e⟩, h2⟩ := h.stores s hs
        exact ⟨⟨c, grow _ _ _ e⟩, h2⟩
      · obtain ⟨⟨c, e⟩, h2⟩ := h.past a ha
        exact ⟨⟨c, grow _ _ _ e⟩, h2⟩
      · rcases back l b c e with e | ⟨rfl, rfl⟩
        · exact e
        · exact absurd hlt (lt_irrefl _)

theorem Spread.ahead (hK : Orderly K) (hC : Confined cfg K P mem R W)
    (hd : ∀ k n, alone cfg K (P.prog k) ⟨mem, P.mats k⟩ n ≠ none) (k : ι) (n : Nat)
    {ρ : ι → Corr} {w : Weak ι α} (h : Spread cfg K P mem R W ρ w) :
    ∃ w' ρ', Weak.ahead cfg K P k n w = some w' ∧ Spread cfg K P mem R W ρ' w' ∧
      (∀ l b c, ρ' l b c → b < (w.view l).bufs.length → ρ l b c) := by
  induction n generalizing ρ w with
  | zero => exact ⟨w, ρ, rfl, h, fun _ _ _ h _ => h⟩
  | succ n ih =>
    obtain ⟨w1, ρ1, e1, h1, b1, l1⟩ := h.move hK hC hd k
    obtain ⟨w2, ρ2, e2, h2, b2⟩ := ih h1
    exact ⟨w2, ρ2, by rw [Weak.ahead, e1]; exact e2, h2, fun l b c e hb =>
      b1 l b c (b2 l b c e (lt_of_lt_of_le hb (l1 l))) hb⟩

theorem Spread.happen (hK : Orderly K) (hA : ZonesApart R W) (hC : Confined cfg K P mem R W)
    (hd : ∀ k n, alone cfg K (P.prog k) ⟨mem, P.mats k⟩ n ≠ none)
    (h : Spread cfg K P mem R W ρ w) (e : Happening ι) :
    ∃ w' ρ', w.happen cfg K P e = some w' ∧ Spread cfg K P mem R W ρ' w' := by
  cases e with
  | move k =>
    obtain ⟨w', ρ', e, h', -⟩ := h.move hK hC hd k
    exact ⟨w', ρ', e, h'⟩
  | arrive k i =>
    cases hs : w.stores[i]? with
    | none => exact ⟨w, ρ, by simp only [Weak.happen, hs], h⟩
    | some s =>
      refine ⟨if s.maker = k then w else w.see k s.place s.value, ρ, by simp only [Weak.happen, hs], ?_⟩
      split
      · exact h
      · rename_i hne
        obtain ⟨h1, h2⟩ := h.stores s (List.mem_of_getElem? hs)
        exact h.see hA hne h1 h2
  | early k n =>
    obtain ⟨w', ρ', e, h', b⟩ := h.ahead hK hC hd k n
    refine ⟨{ w with
      stores := w.stores ++ (w'.stores.drop w.stores.length).filter
        (fun s => s.place.buf < (w.view k).bufs.length) }, ρ, by simp only [Weak.happen, e], h.follow, h.apart, h.length, fun s hs => ?_, h.past⟩
    rcases List.mem_append.1 hs with hs | hs
    · exact h.stores s hs
    · obtain ⟨hs, hlt⟩ := List.mem_filter.1 hs
      obtain ⟨⟨c, hc⟩, hw⟩ := h'.stores s (List.mem_of_mem_drop hs)
      refine ⟨⟨c, b _ _ _ hc ?_⟩, hw⟩
      rw [h.length _ k]
      exact of_decide_eq_true hlt

theorem Spread.run (hK : Orderly K) (hA : ZonesApart R W) (hC : Confined cfg K P mem R W)
    (hd : ∀ k n, alone cfg K (P.prog k) ⟨mem, P.mats k⟩ n ≠ none)
    (h : Spread cfg K P mem R W ρ w) (es : List (Happening ι)) :
    ∃ w' ρ', w.run cfg K P es = some w' ∧ Spread cfg K P mem R W ρ' w' := by
  induction es generalizing w ρ with
  | nil => exact ⟨w, ρ, rfl, h⟩
  | cons e es ih =>
    obtain ⟨w1, ρ1, h1, t1⟩ := h.happen hK hA hC hd e
    obtain ⟨w2, ρ2, h2, t2⟩ := ih t1
    exact ⟨w2, ρ2, by rw [Weak.run, h1]; exact h2, t2⟩

/-- Threads in their zones. -/
theorem Zoned.weak (hK : Orderly K) (h : Zoned cfg K P mem) (es : List (Happening ι)) :
    WeaklyAsAlone cfg K P mem es := by
  obtain ⟨R, W, mem0, hm, hd, hA, hz, ho⟩ := h
  have hkept := fun k n x => alone_kept (cfg := cfg) hK (hz k) (ho k) n (x := x)
  have hC : Confined cfg K P mem R W := fun k n x op hx hop => by
    have hk := (hkept k n x hx).2
    obtain ⟨h1, h2⟩ := ho k n x op hx hop hk
    exact (op_keeps cfg hK hk op h1 h2).stays (hkept k n x hx).1
  obtain ⟨w, ρ, e, h⟩ := (Spread.start (cfg := cfg) (K := K) (R := R) (W := W) hm).run hK hA hC hd es
  refine ⟨w, e, h.no_race hA, fun k => ?_⟩
  obtain ⟨n, x, mem', hf⟩ := h.follow k
  refine ⟨n, x, hf.reached, hf.seen, fun hc => ?_⟩
  have hi := hf.idle hc
  subst hi
  refine List.Forall₂.imp (fun m m' h => ?_) (forall₂_kept hf.mats (hkept k n x hf.reached).2)
  exact shows cfg (fun b b' i hb hs => hf.agree b b' i hb (hs.imp_right .inl)) h.1 h.2

/-! ### Interleavings -/

theorem weak_run_append (w : Weak ι α) (es fs : List (Happening ι)) :
    w.run cfg K P (es ++ fs) = (w.run cfg K P es).bind fun w' => w'.run cfg K P fs := by
  induction es generalizing w with
  | nil => rfl
  | cons e es ih =>
    rw [List.cons_append, Weak.run, Weak.run]
    cases w.happen cfg K P e with
    | none => rfl
    | some w' => exact ih w'

/-- A store reaches all threads of the list. -/
theorem weak_arrivals {k : ι} {p : Loc} {v : α} {i : Nat} {mem : Mem α} (l : List ι) (hn : l.Nodup)
    (w : Weak ι α) (hs : w.stores[i]? = some ⟨k, p, v⟩) (hv : ∀ j ∈ l, j ≠ k → w.view j = mem) :
    ∃ w', w.run cfg K P (l.map (.arrive · i)) = some w' ∧ w'.task = w.task ∧ w'.view k = w.view k ∧
      ∀ j, j ≠ k → w'.view j = if j ∈ l then ⟨mem.bufs.modify p.buf (·.set p.idx v)⟩ else w.view j := by
  induction l generalizing w with
  | nil => exact ⟨w, rfl, rfl, rfl, fun j _ => by simp⟩
  | cons a l ih =>
    obtain ⟨ha, hn⟩ := List.nodup_cons.1 hn
    by_cases hk : k = a
    · obtain ⟨w', e, ht, h1, h2⟩ := ih hn w hs fun j hj => hv j (List.mem_cons_of_mem _ hj)
      refine ⟨w', ?_, ht, h1, fun j hj => ?_⟩
      · rw [List.map_cons, Weak.run, Weak.happen, hs]
        simp only [if_pos hk, Option.bind_some]
        exact e
      · rw [h2 j hj]
        have : j ≠ a := fun e => hj (e.trans hk.symm)
        simp only [List.mem_cons, this, false_or]
    · obtain ⟨w', e, ht, h1, h2⟩ := ih hn (w.see a p v) hs fun j hj hjk => by
        have : j ≠ a := fun e => ha (e ▸ hj)
        simp only [Weak.see, if_neg this]
        exact hv j (List.mem_cons_of_mem _ hj) hjk
      refine ⟨w', ?_, ht, ?_, fun j hj => ?_⟩
      · rw [List.map_cons, Weak.run, Weak.happen, hs]
        simp only [if_neg hk, Option.bind_some]
        exact e
      · rw [h1]
        simp only [Weak.see, if_neg hk]
      · rw [h2 j hj]
        by_cases hja : j = a
        · subst hja
          simp only [Weak.see, if_pos, List.mem_cons, true_or, ha, if_false]
          rw [hv j (List.mem_cons_self ..) hj]
        · by_cases hjl : j ∈ l <;> simp [Weak.see, hja, hjl]

/-- One move of an interleaving. -/
theorem weak_move {all : List ι} (hn : all.Nodup) {s s' : Scene ι α} {k : ι} (hk : k ∈ all)
    (h : s.move cfg K P k = some s') {w : Weak ι α} (ht : w.task = s.task)
    (hv : ∀ k ∈ all, w.view k = s.mem) :
    ∃ es w', w.run cfg K P es = some w' ∧ w'.task = s'.task ∧ ∀ k ∈ all, w'.view k = s'.mem := by
  have one : ∀ w', w.move cfg K P k = some w' → w'.task = s'.task → (∀ k ∈ all, w'.view k = s'.mem) →
      ∃ es w', w.run cfg K P es = some w' ∧ w'.task = s'.task ∧ ∀ k ∈ all, w'.view k = s'.mem :=
    fun w' e h1 h2 => ⟨[.move k], w', by rw [Weak.run, Weak.happen, e]; rfl, h1, h2⟩
  unfold Scene.move at h
  cases hc : (s.task k).cur with
  | none =>
    simp only [hc] at h
    cases ho : P.prog k (s.task k).seen with
    | none =>
      simp only [ho] at h
      cases h
      exact one w (by simp only [Weak.move, ht, hc, ho]) ht hv
    | some op =>
      simp only [ho] at h
      cases h
      exact one (w.put k ⟨(s.task k).seen, (s.task k).mats, some (op.steps cfg K (s.task k).mats)⟩)
        (by simp only [Weak.move, ht, hc, ho]) (by simp only [Weak.put, Scene.put, ht]) hv
  | some c => cases c with
    | done y => cases y with
      | ok r =>
        simp only [hc] at h
        cases h
        exact one (w.put k ⟨(s.task k).seen ++ [r.1], (s.task k).mats ++ r.2, none⟩)
          (by simp only [Weak.move, ht, hc]) (by simp only [Weak.put, Scene.put, ht]) hv
      | panic =>
        simp only [hc] at h
        cases h
        exact one (w.put k ⟨(s.task k).seen ++ [.panicked], (s.task k).mats, none⟩)
          (by simp only [Weak.move, ht, hc]) (by simp only [Weak.put, Scene.put, ht]) hv
      | ub => simp only [hc] at h; cases h
    | read p f =>
      simp only [hc] at h
      obtain ⟨v, hg, h⟩ := Option.bind_eq_some_iff.1 h
      cases h
      exact one { w.put k ⟨(s.task k).seen, (s.task k).mats, some (f v)⟩ with
          past := w.past ++ [(k, false, p)] }
        (by simp only [Weak.move, ht, hc, hv k hk, hg, Option.bind_some])
        (by simp only [Weak.put, Scene.put, ht]) hv
    | alloc xs f =>
      simp only [hc] at h
      cases h
      exact one _ (by simp only [Weak.move, ht, hc]; rfl) (by simp only [Weak.put, Scene.put, ht, hv k hk])
        (fun l hl => by simp only [Scene.put, hv l hl])
    | write p v f =>
      simp only [hc] at h
      obtain ⟨u, hg, h⟩ := Option.bind_eq_some_iff.1 h
      cases h
      have e1 : w.move cfg K P k = some { (w.see k p v).put k ⟨(s.task k).seen, (s.task k).mats, some f⟩ with
          stores := w.stores ++ [⟨k, p, v⟩]
          past := w.past ++ [(k, true, p)] } := by
        simp only [Weak.move, ht, hc, hv k hk, hg, Option.bind_some]
      obtain ⟨w', e2, h1, h2, h3⟩ := weak_arrivals (cfg := cfg) (K := K) (P := P) (k := k) (p := p) (v := v)
        (i := w.stores.length) (mem := s.mem) all hn
        { (w.see k p v).put k ⟨(s.task k).seen, (s.task k).mats, some f⟩ with
          stores := w.stores ++ [⟨k, p, v⟩]
          past := w.past ++ [(k, true, p)] } (by simp)
        (fun j hj' hj => by simp only [Weak.put, Weak.see, if_neg hj, hv j hj'])
      refine ⟨.move k :: all.map (.arrive · w.stores.length), w', ?_, ?_, fun l hl' => ?_⟩
      · rw [Weak.run, Weak.happen, e1]
        exact e2
      · rw [h1]
        simp only [Weak.put, Weak.see, Scene.put, ht]
      · by_cases hl : l = k
        · subst hl
          rw [h2]
          simp only [Weak.put, Weak.see, Scene.put, if_pos, hv l hl']
        · rw [h3 l hl, if_pos hl']
          rfl

theorem weak_moves {all : List ι} (hn : all.Nodup) {s s' : Scene ι α} {ks : List ι}
    (ha : ∀ k ∈ ks, k ∈ all) (h : s.moves cfg K P ks = some s') {w : Weak ι α} (ht : w.task = s.task)
    (hv : ∀ k ∈ all, w.view k = s.mem) :
    ∃ es w', w.run cfg K P es = some w' ∧ w'.task = s'.task ∧ ∀ k ∈ all, w'.view k = s'.mem := by
  induction ks generalizing s w with
  | nil => cases h; exact ⟨[], w, rfl, ht, hv⟩
  | cons k ks ih =>
    rw [Scene.moves] at h
    obtain ⟨s1, h1, h2⟩ := Option.bind_eq_some_iff.1 h
    obtain ⟨es, w1, e1, t1, v1⟩ := weak_move hn (ha k (List.mem_cons_self ..)) h1 ht hv
    obtain ⟨fs, w2, e2, t2, v2⟩ := ih (fun l hl => ha l (List.mem_cons_of_mem _ hl)) h2 t1 v1
    exact ⟨es ++ fs, w2, by rw [weak_run_append, e1]; exact e2, t2, v2⟩

end Householder.Spec
