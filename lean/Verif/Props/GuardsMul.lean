import Verif.Model.GuardsMul
import Verif.Lemmas.MatMul
import Verif.Props.GuardsSplit

/-!
# Property C89: products obey the aliasing rules

The model is in `Verif/Model/GuardsMul.lean`.
-/

namespace Householder.Props

open Spec Borrow

variable {α : Type}

section
variable [Target]

/-- The kernel does not leave a view, whatever distances the view claims. -/
theorem view_seenIn {m : BaseMatrix} {mem : Mem α} (h : View m mem) : SeenIn m mem := by
  refine ⟨h.sound.container, h.major.notTri, fun i j hi hj => ?_⟩
  have h1 := h.sound.inside i j ((stored_iff h.major).2 ⟨hi, hj⟩)
  rw [raw_steps h.major] at h1
  have e : claimed m.layout = tight m.layout := by
    have := h.major
    cases hl : m.layout <;> simp only [hl, IsMajor] at this <;> rfl
  rw [e]
  have a1 := Nat.mul_le_mul_left i h.le1
  have a2 := Nat.mul_le_mul_left j h.le2
  rw [Nat.mul_comm (steps m.layout).1, Nat.mul_comm (steps m.layout).2] at h1
  omega

/-- An access of the kernel to an element of a view is one to a cell of the view. -/
theorem touch_in {S : Type} (R : Rules S) {m : BaseMatrix} {mem : Mem α} (h : View m mem) (t : Nat)
    (w : Bool) {i j : Nat} (hij : i < m.layout.dim.1 ∧ j < m.layout.dim.2) :
    (windowOf m).Has (seen m i j).idx ∧
      ∀ s, R.touch t m w i j s = R.access w t (.one (seen m i j).idx) s := by
  have hS := view_seenIn h
  have ha := hS.addr hij.1 hij.2
  have hin := hS.inside i j hij.1 hij.2
  refine ⟨?_, fun s => ?_⟩
  · simp only [Window.Has, windowOf, seen]
    omega
  · simp only [Rules.touch]
    rw [if_pos hij, stride_claimed h.major.notTri]
    simp only
    rw [if_pos]
    · simp only [gemmLoc, ha, Int.toNat_natCast, seen]
      rfl
    · simp only [gemmValid, ha]
      refine ⟨Int.natCast_nonneg _, ?_⟩
      have : m.get_pointer.prov.len = m.data.len := rfl
      rw [this]
      exact_mod_cast hin

theorem touch_out {S : Type} (R : Rules S) (m : BaseMatrix) (t : Nat) (w : Bool) {i j : Nat}
    (hij : ¬ (i < m.layout.dim.1 ∧ j < m.layout.dim.2)) (s : S) : R.touch t m w i j s = some s := by
  simp only [Rules.touch]
  rw [if_neg hij]

/-- An access of the kernel is none, or one to a cell of the view. -/
theorem touch_eq {S : Type} (R : Rules S) {m : BaseMatrix} {mem : Mem α} (h : View m mem) (t : Nat)
    (w : Bool) (i j : Nat) : (∀ s, R.touch t m w i j s = some s) ∨
      ∃ x, (windowOf m).Has x ∧ ∀ s, R.touch t m w i j s = R.access w t (.one x) s := by
  by_cases hij : i < m.layout.dim.1 ∧ j < m.layout.dim.2
  · exact .inr ⟨_, touch_in R h t w hij⟩
  · exact .inl (touch_out R m t w hij)

variable {S : Type} {R : Rules S} {I : S → List Ref → List Ref → Prop}

theorem touch_read (H : Obeys R I) {m : BaseMatrix} {mem : Mem α} (h : View m mem) {t : Nat}
    {c sh : List Ref} {s : S} (hI : I s c sh) (hv : Usable c sh ⟨t, windowOf m, false⟩) (i j : Nat) :
    ∃ s', R.touch t m false i j s = some s' ∧ I s' c sh := by
  rcases touch_eq R h t false i j with e | ⟨x, hx, e⟩
  · exact ⟨s, e s, hI⟩
  · rw [e]
    exact H.read (v := ⟨t, windowOf m, false⟩) hI hv (sub_one hx)

theorem touch_write (H : Obeys R I) {m : BaseMatrix} {mem : Mem α} (h : View m mem) {t : Nat}
    {c : List Ref} {s : S} (hI : I s (⟨t, windowOf m, false⟩ :: c) []) (w : Bool) (i j : Nat) :
    ∃ s', R.touch t m w i j s = some s' ∧ I s' (⟨t, windowOf m, false⟩ :: c) [] := by
  cases w with
  | false => exact touch_read H h hI (.inl rfl) i j
  | true =>
    rcases touch_eq R h t true i j with e | ⟨x, hx, e⟩
    · exact ⟨s, e s, hI⟩
    · rw [e]
      exact H.write (v := ⟨t, windowOf m, false⟩) hI (by simp) (sub_one hx)

omit [Target] in
theorem put_inv {h : Nat → Held × S} {C : Nat → List Ref} {E : Nat → List Ref} {k : Nat} {s : S}
    (hI : ∀ n, I (h n).2 (C n) (E n)) (hs : I s (C k) (E k)) :
    ∀ n, I (put k s h n).2 (C n) (E n) := by
  intro n
  simp only [put]
  split
  · rename_i e; rw [e]; exact hs
  · exact hI n

omit [Target] in
theorem put_held (h : Nat → Held × S) (k : Nat) (s : S) (n : Nat) : (put k s h n).1 = (h n).1 := by
  simp only [put]; split <;> rfl

/-- The kernel. -/
theorem kernel_ok (H : Obeys R I) {a b c : Operand} {ma mb mc : Mem α} (ha : View a.mat ma)
    (hb : View b.mat mb) (hc : View c.mat mc) {C E : Nat → List Ref}
    (hpa : ⟨a.tag, windowOf a.mat, false⟩ ∈ E a.slot)
    (hpb : ⟨b.tag, windowOf b.mat, false⟩ ∈ E b.slot)
    {rest : List Ref} (hpc : C c.slot = ⟨c.tag, windowOf c.mat, false⟩ :: rest)
    (hEc : E c.slot = []) (us : List Touch) : ∀ {h : Nat → Held × S},
    (∀ n, I (h n).2 (C n) (E n)) →
    ∃ h', R.kernel a b c us h = some h' ∧ (∀ n, (h' n).1 = (h n).1) ∧
      ∀ n, I (h' n).2 (C n) (E n) := by
  induction us with
  | nil => exact fun hI => ⟨_, rfl, fun _ => rfl, hI⟩
  | cons u us ih =>
    intro h hI
    cases u with
    | a i l =>
      obtain ⟨s, e, hs⟩ := touch_read H ha (hI a.slot) (.inr hpa) i l
      obtain ⟨h', e', hh, hI'⟩ := ih (put_inv hI hs)
      exact ⟨h', by simp only [Rules.kernel, e, Option.bind_eq_bind, Option.bind_some, e'],
        fun n => (hh n).trans (put_held _ _ _ _), hI'⟩
    | b l j =>
      obtain ⟨s, e, hs⟩ := touch_read H hb (hI b.slot) (.inr hpb) l j
      obtain ⟨h', e', hh, hI'⟩ := ih (put_inv hI hs)
      exact ⟨h', by simp only [Rules.kernel, e, Option.bind_eq_bind, Option.bind_some, e'],
        fun n => (hh n).trans (put_held _ _ _ _), hI'⟩
    | c i j w =>
      have hIc := hI c.slot
      rw [hpc, hEc] at hIc
      obtain ⟨s, e, hs⟩ := touch_write H hc hIc w i j
      rw [← hpc, ← hEc] at hs
      obtain ⟨h', e', hh, hI'⟩ := ih (put_inv hI hs)
      exact ⟨h', by simp only [Rules.kernel, e, Option.bind_eq_bind, Option.bind_some, e'],
        fun n => (hh n).trans (put_held _ _ _ _), hI'⟩

/-- The blocks of a command are as `BlockTame` says. -/
def CommandTame (cfg : Cfg) : Command → Prop
  | .deed _ d => Tame cfg d
  | .multiply _ _ _ _ => True

theorem operand_usable {mem : Mem α} {h : Held} {s : S} (hI : HeldInv I mem h s) {o : Option Nat}
    {v : Handle} (hv : h.operand o = some v) :
    View v.mat mem ∧ Usable (h.chain.map refOf) (h.shared.map refOf) (refOf v) := by
  cases o with
  | none =>
    simp only [Held.operand] at hv
    refine ⟨hI.chain v (List.mem_of_head? hv), .inl ?_⟩
    rw [List.head?_map, hv]
    rfl
  | some k =>
    have hm := List.mem_of_getElem? hv
    exact ⟨(hI.shared v hm).1, .inr (List.mem_map_of_mem hm)⟩

/-- One command. -/
theorem obey_ok (H : Obeys R I) (cfg : Cfg) {mem : Nat → Mem α} {h : Nat → Held × S}
    (hI : ∀ n, HeldInv I (mem n) (h n).1 (h n).2) (d : Command) (hd : CommandTame cfg d) :
    ∃ h', R.obey cfg h d = some h' ∧ ∀ n, HeldInv I (mem n) (h' n).1 (h' n).2 := by
  have stay : ∃ h', some h = some h' ∧ ∀ n, HeldInv I (mem n) (h' n).1 (h' n).2 := ⟨h, rfl, hI⟩
  cases d with
  | deed k d =>
    obtain ⟨h', s', e, hI'⟩ := step_ok H cfg (hI k) d hd
    refine ⟨_, by simp only [Rules.obey, e, Option.map_some]; rfl, fun n => ?_⟩
    by_cases hn : n = k
    · subst hn; simpa using hI'
    · simpa [hn] using hI n
  | multiply a b c us =>
    simp only [Rules.obey]
    split
    · rename_i va vb vc vcs ea eb ec
      split
      · rename_i hne
        obtain ⟨hca, hcb, -⟩ := hne
        obtain ⟨wa, ua⟩ := operand_usable (hI a.1) ea
        obtain ⟨wb, ub⟩ := operand_usable (hI b.1) eb
        have wc : View vc.mat (mem c) := (hI c).chain vc (by rw [ec]; simp)
        let C0 : Nat → List Ref := fun n => (h n).1.chain.map refOf
        let E0 : Nat → List Ref := fun n => (h n).1.shared.map refOf
        have h0 : ∀ n, I (h n).2 (C0 n) (E0 n) := fun n => (hI n).inv
        -- the pointer of the first factor
        obtain ⟨pa, s1, e1, i1⟩ := Obeys.pointer H (v := refOf va) (h0 a.1) ua
        let E1 : Nat → List Ref := fun n =>
          if n = a.1 then ⟨pa, windowOf va.mat, false⟩ :: E0 n else E0 n
        have g1 : ∀ n, I (put a.1 s1 h n).2 (C0 n) (E1 n) := by
          intro n
          by_cases hn : n = a.1
          · subst hn; simpa [put, E1, refOf] using i1
          · simpa [put, E1, hn] using h0 n
        -- the pointer of the second factor
        have ub' : Usable (C0 b.1) (E1 b.1) (refOf vb) := by
          refine ub.imp id fun hm => ?_
          simp only [E1]
          split
          · exact List.mem_cons_of_mem _ hm
          · exact hm
        obtain ⟨pb, s2, e2, i2⟩ := Obeys.pointer H (v := refOf vb) (g1 b.1) ub'
        let E2 : Nat → List Ref := fun n =>
          if n = b.1 then ⟨pb, windowOf vb.mat, false⟩ :: E1 n else E1 n
        have g2 : ∀ n, I (put b.1 s2 (put a.1 s1 h) n).2 (C0 n) (E2 n) := by
          intro n
          by_cases hn : n = b.1
          · subst hn; simpa [put, E2, refOf] using i2
          · simpa [put, E2, hn] using g1 n
        -- the pointer of the result
        have ec0 : C0 c = refOf vc :: vcs.map refOf := by simp [C0, ec]
        have eE2 : E2 c = E0 c := by simp [E2, E1, hca, hcb]
        have g2c := g2 c
        rw [ec0, eE2] at g2c
        obtain ⟨pc, s3, e3, i3⟩ := Obeys.pointerMut H (v := refOf vc) g2c (hI c).noArg
        let C3 : Nat → List Ref := fun n =>
          if n = c then ⟨pc, windowOf vc.mat, false⟩ :: refOf vc :: vcs.map refOf else C0 n
        let E3 : Nat → List Ref := fun n => if n = c then [] else E2 n
        have g3 : ∀ n, I (put c s3 (put b.1 s2 (put a.1 s1 h)) n).2 (C3 n) (E3 n) := by
          intro n
          by_cases hn : n = c
          · subst hn; simpa [put, C3, E3, refOf] using i3
          · have := g2 n
            simp only [C3, E3, hn, if_false]
            simpa [put, hn] using this
        obtain ⟨h', e4, hh, g4⟩ := kernel_ok H (a := ⟨a.1, pa, va.mat⟩) (b := ⟨b.1, pb, vb.mat⟩)
          (c := ⟨c, pc, vc.mat⟩) wa wb wc (C := C3) (E := E3)
          (by
            simp only [E3, Ne.symm hca, if_false, E2]
            split <;> simp [E1])
          (by simp [E3, Ne.symm hcb, E2])
          (rest := refOf vc :: vcs.map refOf) (by simp [C3]) (by simp [E3]) us g3
        have hh' : ∀ n, (h' n).1 = (h n).1 := fun n => by
          rw [hh n, put_held, put_held, put_held]
        have e1' : R.pointer va.tag (windowOf va.mat) (h a.1).2 = some (pa, s1) := e1
        have e2' : R.pointer vb.tag (windowOf vb.mat) (put a.1 s1 h b.1).2 = some (pb, s2) := e2
        have e3' : R.pointerMut vc.tag (windowOf vc.mat) (put b.1 s2 (put a.1 s1 h) c).2 =
          some (pc, s3) := e3
        refine ⟨_, by
          simp only [e1', e2', e3', e4, Option.bind_eq_bind, Option.bind_some, Option.pure_def]; rfl,
          fun n => ?_⟩
        by_cases hn : n = c
        · subst hn
          have g := g4 n
          simp only [C3, E3, if_true] at g
          simp only [if_true]
          refine ⟨?_, by rw [hh' n]; exact (hI n).chain, by simp⟩
          rw [hh' n, ec]
          exact H.pop g rfl
        · have g := g4 n
          simp only [C3, E3, hn, if_false] at g
          simp only [hn, if_false]
          refine ⟨?_, by rw [hh' n]; exact (hI n).chain, by rw [hh' n]; exact (hI n).shared⟩
          rw [hh' n]
          refine H.weaken g (fun v hv => ?_) fun v hv hav => ?_
          · have hv0 : v ∈ E0 n := hv
            have hv1 : v ∈ E1 n := by
              simp only [E1]; split
              · exact List.mem_cons_of_mem _ hv0
              · exact hv0
            simp only [E2]; split
            · exact List.mem_cons_of_mem _ hv1
            · exact hv1
          · have hv1 : v ∈ E1 n := by
              simp only [E2] at hv
              split at hv
              · rcases List.mem_cons.1 hv with rfl | hv
                · cases hav
                · exact hv
              · exact hv
            simp only [E1] at hv1
            split at hv1
            · rcases List.mem_cons.1 hv1 with rfl | hv
              · cases hav
              · exact hv
            · exact hv1
      · exact stay
    · exact stay

/-- A program. -/
theorem obeyAll_ok (H : Obeys R I) (cfg : Cfg) {mem : Nat → Mem α} (ds : List Command)
    (hd : ∀ d ∈ ds, CommandTame cfg d) : ∀ {h : Nat → Held × S},
    (∀ n, HeldInv I (mem n) (h n).1 (h n).2) → (R.obeyAll cfg ds h).isSome := by
  induction ds with
  | nil => exact fun _ => rfl
  | cons d ds ih =>
    intro h hI
    obtain ⟨h1, e1, hI1⟩ := obey_ok H cfg hI d (hd d (by simp))
    simp only [Rules.obeyAll, e1, Option.bind_some]
    exact ih (fun d hd' => hd d (by simp [hd'])) hI1

/-- **C89 for Stacked Borrows.** A program that holds several matrices, with chains of mutable views
and shared views of each, and multiplies views of them, never has undefined behaviour in Stacked
Borrows with protectors, in whatever order the kernel accesses the elements. -/
theorem C89_stacked_borrows (cfg : Cfg) (m : Nat → BaseMatrix) (mem : Nat → Mem α)
    (h : ∀ k, Sound (m k) (mem k)) (hm : ∀ k, IsMajor (m k).layout) (hc : ∀ k, Contiguous (m k).layout)
    (p : Nat → Nat) (arg : Nat → Bool) (g : Nat → GStacks)
    (hg : ∀ k, GStackReady (p k) (m k) (arg k) (g k)) (ds : List Command)
    (hd : ∀ d ∈ ds, CommandTame cfg d) :
    (GStacks.rules.obeyAll cfg ds fun k => (⟨[⟨p k, m k, arg k⟩], []⟩, g k)).isSome := by
  refine obeyAll_ok (I := StackInv) (mem := mem) stack_obeys cfg ds hd fun k =>
    ⟨stackReady_inv (hg k), ?_, by simp⟩
  simp only [List.mem_singleton]
  rintro v rfl
  exact view_of_contiguous (h k) (hm k) (hc k)

/-- **C89 for Tree Borrows.** The same in Tree Borrows with protectors. -/
theorem C89_tree_borrows (cfg : Cfg) (m : Nat → BaseMatrix) (mem : Nat → Mem α)
    (h : ∀ k, Sound (m k) (mem k)) (hm : ∀ k, IsMajor (m k).layout) (hc : ∀ k, Contiguous (m k).layout)
    (p : Nat → Nat) (arg : Nat → Bool) (T : Nat → GTree)
    (hg : ∀ k, GTreeReady (p k) (m k) (arg k) (T k)) (ds : List Command)
    (hd : ∀ d ∈ ds, CommandTame cfg d) :
    (GTree.rules.obeyAll cfg ds fun k => (⟨[⟨p k, m k, arg k⟩], []⟩, T k)).isSome := by
  refine obeyAll_ok (I := TreeInv) (mem := mem) tree_obeys cfg ds hd fun k =>
    ⟨treeReady_inv (hg k), ?_, by simp⟩
  simp only [List.mem_singleton]
  rintro v rfl
  exact view_of_contiguous (h k) (hm k) (hc k)

end

/-! ## Cases -/

/-- Blocks of two matrices are multiplied into a block of a third, first a matrix with itself; the
kernel reads, writes and reads again; then all are used again. -/
def exCommands : List Command :=
  [.deed 0 (.block (0, 0) (2, 3)), .deed 0 (.block (0, 1) (3, 2)), .deed 2 (.blockMut (1, 1) (2, 2)),
   .deed 2 .call,
   .multiply (0, some 0) (0, some 1) 2
     [.c 0 0 false, .a 0 0, .b 0 0, .c 0 0 true, .a 1 2, .b 2 1, .c 1 1 true, .a 0 0, .c 0 1 true],
   .deed 0 (.read 1 2 1), .deed 2 (.set 1 1), .deed 1 (.blockMut (3, 3) (3, 2)),
   .multiply (0, some 0) (1, none) 2 [.a 1 2, .b 2 1, .c 1 1 true, .a 1 2],
   .deed 1 (.set 2 1), .deed 2 .drop, .deed 2 .drop, .deed 0 (.set 0 0), .deed 2 (.set 9 9)]

example (cfg : Cfg) [Target] (hc : cfg.overflowChecks = true) :
    (GStacks.rules.obeyAll cfg exCommands
      fun _ => (⟨[⟨0, exTen, false⟩], []⟩, freshGStacks)).isSome ∧
    (GTree.rules.obeyAll cfg exCommands
      fun _ => (⟨[⟨0, exTen, false⟩], []⟩, freshGTree)).isSome := by
  have hd : ∀ d ∈ exCommands, CommandTame cfg d := by
    intro d hd
    simp only [exCommands, List.mem_cons, List.not_mem_nil, or_false] at hd
    rcases hd with rfl | rfl | rfl | rfl | rfl | rfl | rfl | rfl | rfl | rfl | rfl | rfl | rfl | rfl <;>
      simp [CommandTame, Tame, BlockTame, hc]
  exact ⟨C89_stacked_borrows cfg (fun _ => exTen) (fun _ => exTenMem) (fun _ => exTen_sound)
      (fun _ => trivial) (fun _ => trivial) (fun _ => 0) (fun _ => false) (fun _ => freshGStacks)
      (fun _ => freshGStacks_ready _) _ hd,
    C89_tree_borrows cfg (fun _ => exTen) (fun _ => exTenMem) (fun _ => exTen_sound)
      (fun _ => trivial) (fun _ => trivial) (fun _ => 0) (fun _ => false) (fun _ => freshGTree)
      (fun _ => freshGTree_ready _) _ hd⟩

/-- The models do refuse: a kernel that writes to a factor, one that reads it through a pointer made
before the matrix was written to, and one that goes beyond the container. -/
example : ((GStacks.rules.pointer 0 ⟨0, 100⟩ freshGStacks).bind fun x =>
      GStacks.rules.touch x.1 exTen true 0 0 x.2).isSome = false ∧
    ((GTree.rules.pointer 0 ⟨0, 100⟩ freshGTree).bind fun x =>
      GTree.rules.touch x.1 exTen true 0 0 x.2).isSome = false ∧
    ((GStacks.rules.pointer 0 ⟨0, 100⟩ freshGStacks).bind fun x =>
      (GStacks.rules.set 0 ⟨0, 100⟩ 7 x.2).bind fun g =>
        GStacks.rules.touch x.1 exTen false 9 9 g).isSome = false ∧
    (GTree.rules.touch 0 ⟨⟨0, 0, 5⟩, .rowMajor ⟨(2, 3)⟩, .dynamic, .dynamic⟩ false 1 2
      freshGTree).isSome = false := by
  refine ⟨by decide +kernel, by decide +kernel, by decide +kernel, by decide +kernel⟩

end Householder.Props
