import Verif.Spec.Blame
import Verif.Props.Exclusive
import Verif.Props.Culprit

/-!
# C76 and C77 in every build and for every layout

The theorems of `Props/Lifetimes.lean` and `Props/Exclusive.lean` are about programs that keep to the
conditions of C50. Here there are no such conditions: whatever the build, the strides and the sizes,
moves, borrows and drops that the compiler admits are never the cause of undefined behaviour, and
what the borrow checker leaves over as causes is listed.
-/

namespace Householder.Props

open Spec

variable {α : Type}

/-! ### Runs -/

/-- Programs of any kind: if a step is undefined exactly for bad operations, a program is undefined
exactly if it gets to a bad operation. -/
theorem first_bad {S O R : Type} {step : S → O → Option (R × S)}
    {run : S → List O → Option (List R × S)} {along : S → List O → Prop} {I : S → Prop}
    {Bad : S → O → Prop} (h0 : ∀ s, run s [] = some ([], s))
    (h1 : ∀ s op ops, run s (op :: ops) =
      (step s op).bind fun x => (run x.2 ops).bind fun y => some (x.1 :: y.1, y.2))
    (ha : ∀ s op ops o s', along s (op :: ops) → step s op = some (o, s') → along s' ops)
    (hb : ∀ s op ops, I s → along s (op :: ops) → (step s op = none ↔ Bad s op))
    (hi : ∀ s op ops o s', I s → along s (op :: ops) → step s op = some (o, s') → I s')
    {s : S} {ops : List O} (hs : I s) (hal : along s ops) :
    (run s ops = none ↔ ∃ pre op post os s', ops = pre ++ op :: post ∧ run s pre = some (os, s') ∧
      Bad s' op) ∧
    ∀ os s', run s ops = some (os, s') → os.length = ops.length ∧ I s' := by
  induction ops generalizing s with
  | nil =>
    refine ⟨⟨fun h => by simp [h0] at h, ?_⟩, ?_⟩
    · rintro ⟨pre, op, post, os, s', h, -⟩
      simp at h
    · intro os s' he
      simp only [h0, Option.some.injEq, Prod.mk.injEq] at he
      obtain ⟨rfl, rfl⟩ := he
      exact ⟨rfl, hs⟩
  | cons op ops ih =>
    have hub := hb s op ops hs hal
    cases he : step s op with
    | none =>
      have hn : run s (op :: ops) = none := by rw [h1, he]; rfl
      rw [hn]
      exact ⟨⟨fun _ => ⟨[], op, ops, [], s, rfl, h0 s, hub.1 he⟩, fun _ => rfl⟩,
        fun _ _ h => by simp at h⟩
    | some x =>
      obtain ⟨o, s1⟩ := x
      have hnc : ¬ Bad s op := fun hc => by rw [hub.2 hc] at he; cases he
      obtain ⟨ih1, ih2⟩ := ih (hi s op ops o s1 hs hal he) (ha s op ops o s1 hal he)
      have hrun : ∀ x, run s (op :: x) = (run s1 x).bind fun y => some (o :: y.1, y.2) := by
        intro x
        rw [h1, he]
        rfl
      constructor
      · rw [hrun, Option.bind_eq_none_iff]
        constructor
        · intro hn
          have hn' : run s1 ops = none := by
            cases hx : run s1 ops with
            | none => rfl
            | some y => simpa using hn y hx
          obtain ⟨pre, op', post, os, s', h3, h4, h5⟩ := ih1.1 hn'
          exact ⟨op :: pre, op', post, o :: os, s', by rw [h3]; rfl, by rw [hrun, h4]; rfl, h5⟩
        · rintro ⟨pre, op', post, os, s', h3, h4, h5⟩
          cases pre with
          | nil =>
            obtain ⟨rfl, -⟩ := List.cons.inj h3
            simp only [h0, Option.some.injEq, Prod.mk.injEq] at h4
            obtain ⟨-, rfl⟩ := h4
            exact absurd h5 hnc
          | cons op0 pre =>
            obtain ⟨rfl, h3'⟩ := List.cons.inj h3
            rw [hrun] at h4
            obtain ⟨y, h6, h7⟩ := Option.bind_eq_some_iff.1 h4
            simp only [Option.some.injEq, Prod.mk.injEq] at h7
            have hn' := ih1.2 ⟨pre, op', post, y.1, y.2, h3', h6, by rw [h7.2]; exact h5⟩
            intro z hz
            rw [hn'] at hz; simp at hz
      · intro os s' hr
        rw [hrun] at hr
        obtain ⟨y, h6, h7⟩ := Option.bind_eq_some_iff.1 hr
        simp only [Option.some.injEq, Prod.mk.injEq] at h7
        obtain ⟨h8, h9⟩ := ih2 y.1 y.2 h6
        rw [← h7.1, ← h7.2]
        exact ⟨by simp [h8], h9⟩

/-! ### The invariant -/

/-- The containers of a matrix are in memory. -/
def Placed (mem : Mem α) (m : Mat α) : Prop := ∀ b ∈ parts m, InMem b mem

theorem parts_storage {m : Mat α} {b : BaseMatrix} (h : b ∈ parts m) : b.data.buf ∈ storage m := by
  induction m with
  | base b' =>
    obtain rfl : b = b' := by simpa [parts] using h
    simp [storage]
  | ref m ih => exact ih h
  | addition m1 m2 l ih1 ih2 =>
    rcases List.mem_append.1 h with h | h
    · exact List.mem_append_left _ (ih1 h)
    · exact List.mem_append_right _ (ih2 h)
  | scalarMult m s ih => exact ih h

instance : Kept (α := α) Placed where
  gone mem := by simp [Placed, gone, parts, InMem]
  congr mem mem' m h hs b hb := (h b hb).trans (hs _ (parts_storage hb))

section

variable [Target] [Zero α] [One α] [Add α] [Mul α] {cfg : Cfg} {kern : Kern α}

/-- An operation of the library that is not a culprit. -/
theorem placed_exec {s : St α} (hi : Windows s) {p : Op α} (hc : ¬ Culprit cfg s p) :
    p.exec cfg kern s = .panic ∨
      ∃ o s', p.exec cfg kern s = .ok (o, s') ∧ ∀ m ∈ s'.mats, Placed s'.mem m := by
  cases hx : p.exec cfg kern s with
  | panic => exact .inl rfl
  | ub => exact absurd ((exec_ub_iff kern hi p).1 hx) hc
  | ok x =>
    have h : p.step cfg kern s = some (x.1, x.2) := by simp [Op.step, hx]
    exact .inr ⟨x.1, x.2, rfl, hi.step kern h⟩

/-- Only the operations of the library can be culprits. -/
def CulpritStep (cfg : Cfg) (t : LSt α) (op : LOp α) : Prop := ∃ p, op = .run p ∧ Culprit cfg t.st p

theorem life_step_iff {t : LSt α} (H : OwnedBy Placed t) {op : LOp α} (ha : Admitted t op) :
    (op.step cfg kern t = none ↔ CulpritStep cfg t op) ∧
    ∀ o t', op.step cfg kern t = some (o, t') → OwnedBy Placed t' ∧
      (∀ b ∈ t.program, b ∈ t'.program) ∧
      ∀ b ∈ t'.freed, b ∈ t'.program → b ∈ t.freed ∧ b ∈ t.program ∨ op = .dropSlice b := by
  by_cases hc : CulpritStep cfg t op
  · obtain ⟨p, rfl, hp⟩ := hc
    have he := (exec_ub_iff kern H.good p).2 hp
    have : (LOp.run p).step cfg kern t = none := by simp [LOp.step, he]
    rw [this]
    exact ⟨⟨fun _ => ⟨p, rfl, hp⟩, fun _ => rfl⟩, fun _ _ h => by simp at h⟩
  · obtain ⟨o, t', e, h⟩ := life_step_by (kern := kern) H ha fun p hp =>
      placed_exec H.good fun h => hc ⟨p, hp, h⟩
    rw [e]
    refine ⟨⟨fun h => by simp at h, fun h => absurd h hc⟩, fun o1 t1 h1 => ?_⟩
    obtain ⟨rfl, rfl⟩ : o = o1 ∧ t' = t1 := by simpa using h1
    exact h

theorem runLife_cons (t : LSt α) (op : LOp α) (ops : List (LOp α)) :
    runLife cfg kern t (op :: ops) = (op.step cfg kern t).bind fun x =>
      (runLife cfg kern x.2 ops).bind fun y => some (x.1 :: y.1, y.2) := rfl

theorem runExclusive_cons (x : XSt α) (op : XOp α) (ops : List (XOp α)) :
    runExclusive cfg kern x (op :: ops) = (op.step cfg kern x).bind fun y =>
      (runExclusive cfg kern y.2 ops).bind fun z => some (y.1 :: z.1, z.2) := rfl

/-! ### C76 -/

/-- The invariant along a run, with what has been freed. -/
theorem life_run_any {t : LSt α} (H : OwnedBy Placed t) {ops : List (LOp α)}
    (h : AlongLife cfg kern Admitted t ops) :
    (runLife cfg kern t ops = none ↔ ∃ pre op post os t', ops = pre ++ op :: post ∧
      runLife cfg kern t pre = some (os, t') ∧ CulpritStep cfg t' op) ∧
    ∀ os t', runLife cfg kern t ops = some (os, t') → os.length = ops.length ∧ OwnedBy Placed t' :=
  first_bad (step := fun t op => op.step cfg kern t) (run := runLife cfg kern)
    (along := AlongLife cfg kern Admitted) (fun _ => rfl) runLife_cons
    (fun _ _ _ o t' h e => h.2 o t' e) (fun _ _ _ H h => (life_step_iff H h.1).1)
    (fun _ _ _ o t' H h e => ((life_step_iff H h.1).2 o t' e).1) H h

/-- **C76, in every build and for every layout**: in a program with moves and drops that the compiler
admits, undefined behaviour can only come from an operation of the library that leaves its container
or breaks the contract of the product (C85), as in a program without drops. No drop is undefined:
nothing is freed twice. The containers of all values that are still there are in memory that has not
been freed; so nothing is used after it was freed, short of leaving a container. -/
theorem C76_every_build (cfg : Cfg) (kern : Kern α) (ops : List (LOp α))
    (h : AlongLife cfg kern Admitted LSt.init ops) :
    (runLife cfg kern LSt.init ops = none ↔ ∃ pre op post os t, ops = pre ++ .run op :: post ∧
      runLife cfg kern LSt.init pre = some (os, t) ∧ Culprit cfg t.st op) ∧
    ∀ os t, runLife cfg kern LSt.init ops = some (os, t) → os.length = ops.length ∧
      t.freed.Nodup ∧ ∀ k m, (t.life k).live = true → t.st.mats[k]? = some m → ∀ b ∈ parts m,
        b.data.buf ∉ t.freed ∧ b.data.off + b.data.len ≤ t.st.mem.size b.data.buf := by
  obtain ⟨h1, h2⟩ := life_run_any (kern := kern) (owned_init (α := α) (P := Placed)) h
  refine ⟨h1.trans ⟨?_, ?_⟩, fun os t e => ?_⟩
  · rintro ⟨pre, op, post, os, t, e, e', p, rfl, hp⟩
    exact ⟨pre, p, post, os, t, e, e', hp⟩
  · rintro ⟨pre, p, post, os, t, e, e', hp⟩
    exact ⟨pre, .run p, post, os, t, e, e', p, rfl, hp⟩
  · obtain ⟨h3, H⟩ := h2 os t e
    exact ⟨h3, H.once, fun k m hk hm b hb =>
      ⟨H.stored k hk m hm _ (parts_storage hb), H.good m (List.mem_of_getElem? hm) b hb⟩⟩

theorem freed_program_run {t t' : LSt α} (H : OwnedBy Placed t) {ops : List (LOp α)}
    (h : AlongLife cfg kern Admitted t ops) {os : List (Obs α)}
    (e : runLife cfg kern t ops = some (os, t')) :
    (∀ b ∈ t.program, b ∈ t'.program) ∧
      ∀ b ∈ t'.freed, b ∈ t'.program → b ∈ t.freed ∧ b ∈ t.program ∨ .dropSlice b ∈ ops := by
  induction ops generalizing t os with
  | nil =>
    simp only [runLife, Option.some.injEq, Prod.mk.injEq] at e
    obtain ⟨rfl, rfl⟩ := e
    exact ⟨fun _ h => h, fun b h1 h2 => .inl ⟨h1, h2⟩⟩
  | cons op ops ih =>
    simp only [runLife_cons, Option.bind_eq_some_iff, Option.some.injEq, Prod.mk.injEq] at e
    obtain ⟨⟨o, t1⟩, e1, ⟨os1, t2⟩, e2, rfl, rfl⟩ := e
    obtain ⟨H1, p1, f1⟩ := (life_step_iff H h.1).2 o t1 e1
    obtain ⟨p2, f2⟩ := ih H1 (h.2 o t1 e1) e2
    refine ⟨fun b hb => p2 b (p1 b hb), fun b hb hp => ?_⟩
    rcases f2 b hb hp with ⟨h4, h5⟩ | h4
    · rcases f1 b h4 h5 with h6 | rfl
      · exact .inl h6
      · exact .inr (by simp)
    · exact .inr (by simp [h4])

/-- **C76, in every build**, no leak: as `C76_no_leak`, for all programs that the compiler admits. -/
theorem C76_no_leak_every_build (cfg : Cfg) (kern : Kern α) (ops : List (LOp α))
    (h : AlongLife cfg kern Admitted LSt.init ops) {os : List (Obs α)} {t : LSt α}
    (e : runLife cfg kern LSt.init ops = some (os, t)) :
    (∀ b, b < t.st.mem.bufs.length → b ∉ t.program →
      (t.freed.count b = 1 ∧ ∀ h, (t.life h).live = true → b ∉ (t.life h).owns) ∨
      (b ∉ t.freed ∧ ∃ h, ((t.life h).live = true ∧ b ∈ (t.life h).owns) ∧
        ∀ g, (t.life g).live = true → b ∈ (t.life g).owns → g = h)) ∧
    ((∀ h, (t.life h).live = false) →
      ∀ b, b < t.st.mem.bufs.length → b ∉ t.program → t.freed.count b = 1) ∧
    (∀ b ∈ t.program, b ∈ t.freed → .dropSlice b ∈ ops) := by
  have H := ((life_run_any (kern := kern) (owned_init (α := α) (P := Placed)) h).2 os t e).2
  have hf := (freed_program_run (owned_init (α := α) (P := Placed)) h e).2
  have one : ∀ b, b < t.st.mem.bufs.length → b ∉ t.program →
      (t.freed.count b = 1 ∧ ∀ h, (t.life h).live = true → b ∉ (t.life h).owns) ∨
      (b ∉ t.freed ∧ ∃ h, ((t.life h).live = true ∧ b ∈ (t.life h).owns) ∧
        ∀ g, (t.life g).live = true → b ∈ (t.life g).owns → g = h) := by
    intro b hb hp
    by_cases hbf : b ∈ t.freed
    · exact .inl ⟨List.count_eq_one_of_mem H.once hbf, fun h hh ho => (H.owns h hh b ho).2.1 hbf⟩
    · rcases H.complete b hb with h | h | ⟨h, h1, h2⟩
      · exact absurd h hbf
      · exact absurd h hp
      · exact .inr ⟨hbf, h, ⟨h1, h2⟩, fun g hg hbg => H.unique g h hg h1 b hbg h2⟩
  refine ⟨one, fun hd b hb hp => ?_, fun b hb hbf => ?_⟩
  · rcases one b hb hp with h | ⟨-, h, ⟨h1, -⟩, -⟩
    · exact h.1
    · rw [hd h] at h1; cases h1
  · rcases hf b hbf hb with ⟨h, -⟩ | h
    · simp [LSt.init] at h
    · exact h

theorem same_run_any {t t' : LSt α} {s : St α} (H : OwnedBy Placed t)
    (hs : SameButDrops t s) {ops : List (LOp α)} (h : AlongLife cfg kern Admitted t ops)
    {os : List (Obs α)} (e : runLife cfg kern t ops = some (os, t')) :
    ∃ s', runProgram cfg kern s (withoutDrops ops) = some (returned ops os, s') ∧
      SameButDrops t' s' := by
  induction ops generalizing t s os with
  | nil =>
    simp only [runLife, Option.some.injEq, Prod.mk.injEq] at e
    obtain ⟨rfl, rfl⟩ := e
    exact ⟨s, rfl, hs⟩
  | cons op ops ih =>
    simp only [runLife_cons, Option.bind_eq_some_iff, Option.some.injEq, Prod.mk.injEq] at e
    obtain ⟨⟨o, t1⟩, e1, ⟨os1, t2⟩, e2, rfl, rfl⟩ := e
    have H1 := ((life_step_iff H h.1).2 o t1 e1).1
    have hst := same_step H hs h.1 e1
    cases op with
    | run op =>
      obtain ⟨s1, hs1, hsb⟩ := hst
      obtain ⟨s2, hs2, hsb2⟩ := ih H1 hsb (h.2 o t1 e1) e2
      refine ⟨s2, ?_, hsb2⟩
      have : withoutDrops (.run op :: ops) = op :: withoutDrops ops := rfl
      rw [this]
      simp [runProgram, hs1, hs2, returned]
    | drop k => exact ih H1 hst (h.2 o t1 e1) e2
    | dropSlice b => exact ih H1 hst (h.2 o t1 e1) e2

/-- **C76, in every build**, drops change nothing else: as `C76_same_results`, for all programs that
the compiler admits. -/
theorem C76_same_results_every_build (cfg : Cfg) (kern : Kern α) (ops : List (LOp α))
    (h : AlongLife cfg kern Admitted LSt.init ops) {os : List (Obs α)} {t : LSt α}
    (e : runLife cfg kern LSt.init ops = some (os, t)) :
    ∃ s, runProgram cfg kern St.init (withoutDrops ops) = some (returned ops os, s) ∧
      (∀ h, (t.life h).live = true → t.st.mats[h]? = s.mats[h]?) ∧
      ∀ q, q.buf ∉ t.freed → t.st.mem.get? q = s.mem.get? q := by
  obtain ⟨s, h1, h2⟩ := same_run_any (owned_init (α := α) (P := Placed))
    ⟨rfl, rfl, fun _ _ => rfl, fun _ _ => rfl⟩ h e
  exact ⟨s, h1, h2.mats, fun q hq => by unfold Mem.get?; rw [h2.bufs _ hq]⟩

/-! ### C77 -/

omit [Zero α] [One α] [Add α] [Mul α] in
/-- If everything is looked for inside the containers, what is confused is in both windows. -/
theorem looked_overlap {x y : BaseMatrix} (hx : LooksInside x) (hy : LooksInside y)
    (h : ¬ LooksApart x y) : ∃ q, inWindow q x ∧ inWindow q y := by
  unfold LooksApart at h
  push Not at h
  obtain ⟨hb, i, j, i', j', h1, h2, h3, h4, e⟩ := h
  obtain ⟨h5, h6⟩ := hx i j h1 h2
  obtain ⟨h7, h8⟩ := hy i' j' h3 h4
  refine ⟨⟨x.data.buf, (lookedAt x i j).toNat⟩, ⟨rfl, ?_, ?_⟩, ⟨hb, ?_, ?_⟩⟩ <;> simp only <;> omega

omit [Zero α] [One α] [Add α] [Mul α] in
theorem blamed_iff {x : XSt α} {mutable : Bool} {p : Op α} (X : ExclBy Placed x)
    (S : Sep windowFoot True x) (ha : Checked x ⟨mutable, .run p⟩) :
    Culprit cfg x.t.st p ↔ Blamed cfg x p := by
  unfold Culprit Blamed
  refine or_congr Iff.rfl ?_
  cases p with
  | matmul alpha a b beta c =>
    constructor
    · rintro ⟨ma, mb, mc, e1, e2, e3, h1, h2, t1, t2, t3, hk⟩
      refine ⟨ma, mb, mc, e1, e2, e3, h1, ⟨h2, t1, t2, t3⟩, ?_⟩
      by_cases hm : Misplaced ma mb mc
      · exact .inl hm
      · right
        unfold Misplaced at hm
        push Not at hm
        obtain ⟨i1, i2, i3, i4⟩ := hm
        have : ¬ LooksApart mc ma ∨ ¬ LooksApart mc mb := by
          by_contra hn
          push Not at hn
          exact hk ⟨i1, i2, i3, i4, hn.1, hn.2⟩
        rcases this with h | h
        · obtain ⟨q, hq, hq'⟩ := looked_overlap i3 i1 h
          obtain ⟨h3, h4⟩ := overlap_parts X S ha (by simp) e1 e3 hq hq'
          exact ⟨h4, .inl ⟨h3, h⟩⟩
        · obtain ⟨q, hq, hq'⟩ := looked_overlap i3 i2 h
          obtain ⟨h3, h4⟩ := overlap_parts X S ha (by simp) e2 e3 hq hq'
          exact ⟨h4, .inr ⟨h3, h⟩⟩
    · rintro ⟨ma, mb, mc, e1, e2, e3, h1, ⟨h2, t1, t2, t3⟩, hk⟩
      refine ⟨ma, mb, mc, e1, e2, e3, h1, h2, t1, t2, t3, ?_⟩
      rintro ⟨i1, i2, i3, i4, i5, i6⟩
      rcases hk with (h | h | h | h) | ⟨-, ⟨-, h⟩ | ⟨-, h⟩⟩
      · exact h i1
      · exact h i2
      · exact h i3
      · exact h i4
      · exact h i5
      · exact h i6
  | dot a b =>
    have apart : ∀ {k : Nat} {mk mc : BaseMatrix} {i : DotImpl} {ma mb : BaseMatrix}, k ∈ [a, b] →
        x.t.st.base? k = some mk →
        dotResult cfg i ma mb x.t.st.mem.bufs.length = some mc → LooksApart mc mk := by
      intro k mk mc i ma mb hk hmk hd hbuf
      exfalso
      have hlive : (x.t.life k).live = true := ha.1.1 k (by simpa [Op.operands] using hk)
      have h1 := X.owned.stored_lt k hlive _ (base?_some hmk) mk.data.buf (by simp [storage])
      have h2 : mc.data.buf = x.t.st.mem.bufs.length := by
        have new : ∀ {l : Layout} {z : SizeId × SizeId},
            brandNew cfg x.t.st.mem.bufs.length l z = some mc →
            mc.data.buf = x.t.st.mem.bufs.length := by
          intro l z h
          unfold brandNew at h
          split at h
          · split at h
            · cases h; rfl
            · cases h
          · cases h
        unfold dotResult at hd
        split at hd
        · exact new hd
        · split at hd
          · exact new hd
          · cases hd
        · split at hd
          · exact new hd
          · cases hd
      omega
    constructor
    · rintro ⟨ma, mb, i, mc, e1, e2, h1, h2, h3, t1, t2, t3, hk⟩
      refine ⟨ma, mb, i, mc, e1, e2, h1, h2, ⟨h3, t1, t2, t3⟩, ?_⟩
      by_contra hm
      unfold Misplaced at hm
      push Not at hm
      obtain ⟨i1, i2, i3, i4⟩ := hm
      exact hk ⟨i1, i2, i3, i4, apart (by simp) e1 h2, apart (by simp) e2 h2⟩
    · rintro ⟨ma, mb, i, mc, e1, e2, h1, h2, ⟨h3, t1, t2, t3⟩, hk⟩
      refine ⟨ma, mb, i, mc, e1, e2, h1, h2, h3, t1, t2, t3, ?_⟩
      rintro ⟨i1, i2, i3, i4, -, -⟩
      rcases hk with h | h | h | h
      · exact h i1
      · exact h i2
      · exact h i3
      · exact h i4
  | _ => exact Iff.rfl

theorem exclusive_step_iff {x : XSt α} (X : ExclBy Placed x) (S : Sep windowFoot True x) {op : XOp α}
    (ha : Checked x op) :
    (op.step cfg kern x = none ↔ ∃ p, op.op = .run p ∧ Blamed cfg x p) ∧
    ∀ o x', op.step cfg kern x = some (o, x') → ExclBy Placed x' ∧ Sep windowFoot True x' := by
  obtain ⟨mutable, op⟩ := op
  by_cases hc : ∃ p, op = .run p ∧ Blamed cfg x p
  · obtain ⟨p, rfl, hp⟩ := hc
    have he := (exec_ub_iff kern X.owned.good p).2 ((blamed_iff X S ha).2 hp)
    have : (XOp.mk mutable (.run p)).step cfg kern x = none := by simp [XOp.step, LOp.step, he]
    rw [this]
    exact ⟨⟨fun _ => ⟨p, rfl, hp⟩, fun _ => rfl⟩, fun _ _ h => by simp at h⟩
  · obtain ⟨o, x', e, h⟩ := exclusive_step_by (kern := kern) X S ha fun p hp => by
      obtain rfl : op = .run p := hp
      exact placed_exec X.owned.good fun h => hc ⟨p, rfl, (blamed_iff X S ha).1 h⟩
    rw [e]
    refine ⟨⟨fun h => by simp at h, fun h => absurd h hc⟩, fun o1 x1 h1 => ?_⟩
    obtain ⟨rfl, rfl⟩ : o = o1 ∧ x' = x1 := by simpa using h1
    exact h

/-- **C77, exactly, in every build and for every layout**: a program that the borrow checker accepts
gets to undefined behaviour exactly if one of its operations leaves its container, or multiplies and
looks for an element outside a container, or for two elements of the result at one place, or takes a
cell of a part of a split for a cell of a factor that is a part of a split too. Other aliases are
impossible. -/
theorem C77_every_build (cfg : Cfg) (kern : Kern α) (ops : List (XOp α))
    (h : AlongExclusive cfg kern Checked XSt.init ops) :
    (runExclusive cfg kern XSt.init ops = none ↔
      ∃ pre op p post os x, ops = pre ++ op :: post ∧
        runExclusive cfg kern XSt.init pre = some (os, x) ∧ op.op = .run p ∧ Blamed cfg x p) ∧
    ∀ os x, runExclusive cfg kern XSt.init ops = some (os, x) → os.length = ops.length := by
  obtain ⟨h1, h2⟩ := first_bad (step := fun x op => op.step cfg kern x)
    (run := runExclusive cfg kern) (along := AlongExclusive cfg kern Checked)
    (I := fun x => ExclBy Placed x ∧ Sep windowFoot True x)
    (Bad := fun x (op : XOp α) => ∃ p, op.op = .run p ∧ Blamed cfg x p)
    (fun _ => rfl) runExclusive_cons (fun _ _ _ o x' h e => h.2 o x' e)
    (fun _ _ _ X h => (exclusive_step_iff X.1 X.2 h.1).1)
    (fun _ _ _ o x' X h e => (exclusive_step_iff X.1 X.2 h.1).2 o x' e)
    (s := XSt.init) ⟨excl_init, sep_init _ _⟩ h
  refine ⟨h1.trans ⟨?_, ?_⟩, fun os x e => (h2 os x e).1⟩
  · rintro ⟨pre, op, post, os, x, e1, e2, p, e3, e4⟩
    exact ⟨pre, op, p, post, os, x, e1, e2, e3, e4⟩
  · rintro ⟨pre, op, p, post, os, x, e1, e2, e3, e4⟩
    exact ⟨pre, op, post, os, x, e1, e2, p, e3, e4⟩

omit [Zero α] [One α] in
/-- What an expression shows depends on the windows of its parts only, whatever the layouts. -/
theorem get_windows {mem mem' : Mem α} {m : Mat α}
    (h : ∀ q, foot (fun b q => inWindow q b) m q → mem'.get? q = mem.get? q) :
    (∀ r c, m.get cfg mem' r c = m.get cfg mem r c) ∧
    ∀ k, m.get1d cfg mem' k = m.get1d cfg mem k := by
  have base : ∀ {b : BaseMatrix}, (∀ q, inWindow q b → mem'.get? q = mem.get? q) → ∀ k,
      b.data.get_unchecked mem' k = b.data.get_unchecked mem k := by
    intro b hb k
    unfold Container.get_unchecked
    split
    · unfold Mem.read
      rw [hb _ ⟨rfl, by simp, by simp only; omega⟩]
    · rfl
  have h2 : ∀ r c, m.get_unchecked cfg mem' r c = m.get_unchecked cfg mem r c := by
    intro r c
    induction m with
    | base b => simp only [Mat.get_unchecked, BaseMatrix.get_unchecked, base h]
    | ref m ih => exact ih h
    | addition a b l iha ihb =>
      simp only [Mat.get_unchecked, iha fun q hq => h q (.inl hq), ihb fun q hq => h q (.inr hq)]
    | scalarMult m s ih =>
      simp only [Mat.get_unchecked, ih h]
  have h1 : ∀ k, m.get1d_unchecked cfg mem' k = m.get1d_unchecked cfg mem k := by
    clear h2
    intro k
    induction m with
    | base b => simp only [Mat.get1d_unchecked, BaseMatrix.get1d_unchecked, base h]
    | ref m ih => exact ih h
    | addition a b l iha ihb =>
      simp only [Mat.get1d_unchecked, iha fun q hq => h q (.inl hq), ihb fun q hq => h q (.inr hq)]
    | scalarMult m s ih =>
      simp only [Mat.get1d_unchecked, ih h]
  exact ⟨fun r c => by simp only [Mat.get, h2], fun k => by simp only [Mat.get1d, h1]⟩

/-- The values that a step may write to. -/
def writes (op : XOp α) (g : Nat) : Prop := ∃ p, op.op = .run p ∧ p.writesTo = some g

/-- **C77, partial, in every build and for every layout**, shared or mutable: a step of a program that
the borrow checker accepts changes nothing that any value shows which may be read afterwards, except
the value written to. Missing: values that are, or refer to, parts of splits, while another part of a
split is written to (`C77_exclusive_false`). -/
theorem C77_exclusive_every_build_partial (cfg : Cfg) (kern : Kern α) (ops : List (XOp α))
    (h : AlongExclusive cfg kern Checked XSt.init ops) {os : List (Obs α)} {x : XSt α}
    (e : runExclusive cfg kern XSt.init ops = some (os, x)) (op : XOp α) (ha : Checked x op)
    {o : Obs α} {x' : XSt α} (e' : op.step cfg kern x = some (o, x')) (g : Nat) (m : Mat α)
    (hg : (x.t.life g).live = true) (hg' : (x'.t.life g).live = true)
    (hm : x.t.st.mats[g]? = some m) (hr : Readable x g) (hw : ¬ writes op g)
    (hp : x.part g = true → ∀ k, writes op k → x.part k = false) :
    x'.t.st.mats[g]? = some m ∧
    (∀ r c, m.get cfg x'.t.st.mem r c = m.get cfg x.t.st.mem r c) ∧
    ∀ k, m.get1d cfg x'.t.st.mem k = m.get1d cfg x.t.st.mem k := by
  obtain ⟨-, h2⟩ := first_bad (step := fun x op => op.step cfg kern x)
    (run := runExclusive cfg kern) (along := AlongExclusive cfg kern Checked)
    (I := fun x => ExclBy Placed x ∧ Sep windowFoot True x)
    (Bad := fun x (op : XOp α) => ∃ p, op.op = .run p ∧ Blamed cfg x p)
    (fun _ => rfl) runExclusive_cons (fun _ _ _ o x' h e => h.2 o x' e)
    (fun _ _ _ X h => (exclusive_step_iff X.1 X.2 h.1).1)
    (fun _ _ _ o x' X h e => (exclusive_step_iff X.1 X.2 h.1).2 o x' e)
    (s := XSt.init) ⟨excl_init, sep_init _ _⟩ h
  obtain ⟨-, X, S⟩ := h2 os x e
  obtain ⟨X', -⟩ := (exclusive_step_iff X S ha).2 o x' e'
  suffices fin : x'.t.st.mats[g]? = some m ∧
      ∀ q, foot (fun b q => inWindow q b) m q → x'.t.st.mem.get? q = x.t.st.mem.get? q from
    ⟨fin.1, get_windows fin.2⟩
  have buf : ∀ q, foot (fun b q => inWindow q b) m q → q.buf ∈ storage m := fun q hq =>
    foot_storage (fun b q h => h.1) hq
  rcases step_cases X ha e' with ⟨t', rfl, h1, h2⟩ | ⟨p, s', h1, h2, rfl⟩
  · have hm' := (h1.mats g hg').2.trans hm
    refine ⟨hm', fun q hq => ?_⟩
    have := X'.owned.stored g hg' m hm' q.buf (buf q hq)
    unfold Mem.get?
    rw [(h1.bufs q.buf this).2]
  · obtain ⟨mutable, op⟩ := op
    simp only at h1
    subst h1
    obtain ⟨⟨new, en, -⟩, -, -, -, hother⟩ := C73_operation cfg kern x.t.st s' p o
      (by simp [Op.step, h2])
    obtain ⟨g1, -, -⟩ := leave_live hg'
    have hlt := X.owned.bound g hg
    refine ⟨?_, fun q hq => ?_⟩
    · show (x.t.after p s').st.mats[g]? = some m
      unfold LSt.after
      rw [leave_get_other g1]
      simp only [en, List.getElem?_append_left hlt, hm]
    · show s'.mem.get? q = x.t.st.mem.get? q
      have hqb : q.buf < x.t.st.mem.bufs.length := X.owned.stored_lt g hg m hm q.buf (buf q hq)
      obtain ⟨⟨hv, -⟩, -, htake⟩ := ha
      refine hother q hqb fun k b hwk hb hqk => ?_
      obtain ⟨w1, w2, -⟩ := htake k (by simp [Op.takesMut, hwk])
      have hgk : g ≠ k := by rintro rfl; exact hw ⟨p, rfl, hwk⟩
      have lk : (x.t.life k).live = true := hv k (by
        cases p with
        | element j a =>
          obtain rfl : j = k := by cases a <;> simp [Op.writesTo] at hwk <;> exact hwk
          simp [Op.operands]
        | _ => simp [Op.writesTo] at hwk <;> simp [Op.operands, hwk])
      rcases S g k m (.base b) q hg lk hgk w1 hm (base?_some hb) hq hqk with hu | hu | hu
      · exact X.up_lent hg hu w2
      · exact X.up_excl lk hu hr
      · have := hp hu.2.1 k ⟨p, rfl, hwk⟩
        rw [hu.2.2] at this
        cases this

end

/-! ### Examples -/

/-- What the compiler checks, computed. -/
def compiles (x : XSt Int) (op : XOp Int) : Bool :=
  let old := fun p : Nat → Bool => (List.range x.t.st.mats.length).all fun g =>
    !(x.t.life g).live || p g
  match op.op with
  | .run o =>
    decide (∀ h ∈ o.operands, (x.t.life h).live = true) &&
      o.moves.all (fun h => old fun g => decide (h ∉ (x.t.life g).lenders)) &&
      decide o.moves.Nodup && decide (∀ h ∈ o.moves, h ∉ o.borrows) &&
      o.operands.all (fun h => old fun g => decide (h ∉ x.excl g)) &&
      (o.takesMut op.mutable).all fun h => x.writable h &&
        (old fun g => decide (h ∉ (x.t.life g).lenders)) && decide (o.operands.count h = 1)
  | .drop h => (x.t.life h).live && old fun g => decide (h ∉ (x.t.life g).lenders)
  | .dropSlice b => decide (b ∈ x.t.program ∧ b ∉ x.t.freed) &&
      old fun g => decide (b ∉ (x.t.life g).slices)

theorem compiles_sound {x : XSt Int} (X : ExclBy Placed x) {op : XOp Int}
    (h : compiles x op = true) : Checked x op := by
  obtain ⟨mutable, op⟩ := op
  have old : ∀ {p : Nat → Bool}, ((List.range x.t.st.mats.length).all fun g =>
      !(x.t.life g).live || p g) = true → ∀ g, (x.t.life g).live = true → p g = true := by
    intro p h g hg
    have := List.all_eq_true.1 h g (List.mem_range.2 (X.owned.bound g hg))
    simpa [hg] using this
  cases op with
  | run o =>
    simp only [compiles, Bool.and_eq_true, decide_eq_true_eq] at h
    obtain ⟨⟨⟨⟨⟨h1, h2⟩, h3⟩, h4⟩, h5⟩, h6⟩ := h
    refine ⟨⟨h1, fun k hk g hg => ?_, h3, h4⟩, fun k hk g hg => ?_, fun k hk => ?_⟩
    · simpa using old (List.all_eq_true.1 h2 k hk) g hg
    · simpa using old (List.all_eq_true.1 h5 k hk) g hg
    · have := List.all_eq_true.1 h6 k hk
      simp only [Bool.and_eq_true, decide_eq_true_eq] at this
      obtain ⟨⟨h7, h8⟩, h9⟩ := this
      exact ⟨h7, fun g hg => by simpa using old h8 g hg, h9⟩
  | drop k =>
    simp only [compiles, Bool.and_eq_true] at h
    exact ⟨⟨h.1, fun g hg => by simpa using old h.2 g hg⟩, trivial⟩
  | dropSlice b =>
    simp only [compiles, Bool.and_eq_true, decide_eq_true_eq] at h
    exact ⟨⟨h.1.1, h.1.2, fun g hg => by simpa using old h.2 g hg⟩, trivial⟩

/-- The same for a program. -/
def compilesAll [Target] (cfg : Cfg) : XSt Int → List (XOp Int) → Bool
  | _, [] => true
  | x, op :: ops => compiles x op && match op.step cfg exactKern x with
    | some (_, x') => compilesAll cfg x' ops
    | none => true

theorem compilesAll_sound [Target] {cfg : Cfg} {x : XSt Int} (X : ExclBy Placed x)
    (S : Sep windowFoot True x) {ops : List (XOp Int)} (h : compilesAll cfg x ops = true) :
    AlongExclusive cfg exactKern Checked x ops := by
  induction ops generalizing x with
  | nil => trivial
  | cons op ops ih =>
    simp only [compilesAll, Bool.and_eq_true] at h
    have h1 := compiles_sound X h.1
    refine ⟨h1, fun o x' e => ?_⟩
    obtain ⟨X1, S1⟩ := (exclusive_step_iff X S h1).2 o x' e
    exact ih X1 S1 (by simpa [e] using h.2)

/-- In a release build: a matrix with overlapping rows on a slice of the program, a view of it, a sum
that takes the view along, its evaluation, drops; then the product of a row vector with the matrix
into a row vector with stride 0. Everything passes the compiler. -/
def wildProgram : List (XOp Int) :=
  [⟨false, .run (.fromSlice .dynamic .dynamic [1, 2, 3, 4] (.asRowMajor ⟨(2, 2), (1, 1)⟩))⟩,
   ⟨false, .run (.block 0 (0, 0) (2, 2))⟩, ⟨false, .run (.add true false 0 1)⟩,
   ⟨false, .run (.eval 2)⟩, ⟨false, .drop 2⟩, ⟨false, .run (.get 3 1 0)⟩,
   ⟨false, .run (.rowZeros 2)⟩,
   ⟨true, .run (.fromSlice .fixed1 .dynamic [0, 0] (.asRowVector ⟨2, 0⟩))⟩,
   ⟨false, .run (.matmul 1 4 0 0 5)⟩]

example : AlongExclusive rel exactKern Checked XSt.init wildProgram :=
  compilesAll_sound excl_init (sep_init _ _) (by decide +kernel)

/-- The drops are fine, the product is to blame: it has two elements of the result at one place. -/
example : runExclusive rel exactKern XSt.init wildProgram = none ∧
    (runExclusive rel exactKern XSt.init (wildProgram.take 8)).map (·.1) =
      some [.done, .done, .done, .done, .done, .value 5, .done, .done] := by decide +kernel

example : ¬ OnePlaceEach ⟨⟨3, 0, 2⟩, .asRowVector ⟨2, 0⟩, .fixed1, .dynamic⟩ := by
  intro h
  have := h 0 0 0 1 (by decide) (by decide) (by decide) (by decide) (by decide)
  exact absurd this.2 (by decide)

/-- The same program without its marks for the borrow checker, for C76. -/
theorem along_life [Target] {cfg : Cfg} {x : XSt Int} {ops : List (XOp Int)}
    (h : AlongExclusive cfg exactKern Checked x ops) :
    AlongLife cfg exactKern Admitted x.t (ops.map (·.op)) := by
  induction ops generalizing x with
  | nil => trivial
  | cons op ops ih =>
    refine ⟨h.1.1, fun o t' e => ?_⟩
    have e' : op.step cfg exactKern x = some (o, x.after op t') := by simp [XOp.step, e]
    have := ih (h.2 o _ e')
    have ht : (x.after op t').t = t' := by unfold XSt.after; split <;> rfl
    rwa [ht] at this

example : AlongLife rel exactKern Admitted LSt.init (wildProgram.map (·.op)) :=
  along_life (compilesAll_sound excl_init (sep_init _ _) (by decide +kernel))

end Householder.Props
