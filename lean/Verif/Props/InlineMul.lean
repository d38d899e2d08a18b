import Verif.Model.InlineMul
import Verif.Props.Inline
import Verif.Props.GuardsMul

/-!
# Property C96, continued: products of matrices that hold their elements inside themselves

The model is in `Verif/Model/InlineMul.lean`.
-/

namespace Householder.Props

open Spec Borrow

variable {α : Type} {S : Type} {R : Rules S} {I : S → List Ref → List Ref → Prop}
  {K : S → Ref → Ref → List Ref → Prop}

/-- A reference that is usable stays so when there are more. -/
theorem usable_cons {c sh : List Ref} {v : Ref} (h : Usable c sh v) (u : Ref) : Usable c (u :: sh) v :=
  h.imp id (List.mem_cons_of_mem _)

/-- What a factor is known by in `matmul`, and what is usable then. -/
theorem pass_ok (H : Obeys R I) (inside : Bool) {s : S} {v : Ref} {c sh : List Ref} (h : I s c sh)
    (hv : Usable c sh v) : ∃ t s' new, R.pass inside v.tag v.win s = some (t, s') ∧
      I s' c (new ++ sh) ∧ (∃ arg, Usable c (new ++ sh) ⟨t, v.win, arg⟩) ∧
      (∀ u ∈ new, inside = true ∧ u = ⟨t, v.win, true⟩) ∧
      (inside = true → ⟨t, v.win, true⟩ ∈ new) := by
  cases inside with
  | false => exact ⟨v.tag, s, [], rfl, h, ⟨v.arg, hv⟩, by simp, by simp⟩
  | true =>
    obtain ⟨t, s1, e1, h1⟩ := H.shrRef h hv (Sub.refl _)
    refine ⟨t, _, [⟨t, v.win, true⟩], by simp only [Rules.pass, e1, Option.map_some, if_true],
      H.enterShared h1, ⟨true, .inr (by simp)⟩, by simp, by simp⟩

theorem seek_ok (H : Obeys R I) (inside : Bool) (ns : List Nat) {s : S} {v : Ref} {c sh : List Ref}
    (h : I s c sh) (hv : Usable c sh v) :
    ∃ s', R.seek inside ns v.tag v.win s = some s' ∧ I s' c sh := by
  cases inside with
  | false => exact ⟨s, rfl, h⟩
  | true => exact H.looks ns h hv

theorem reach_ok (H : Obeys R I) (inside : Bool) (l : List (List Nat)) {s : S} {v : Ref}
    {c sh : List Ref} (h : I s c sh) (hv : Usable c sh v) :
    ∃ p s', R.reach inside l v.tag v.win s = some (p, s') ∧ I s' c (⟨p, v.win, false⟩ :: sh) := by
  cases inside with
  | false => exact H.pointer h hv
  | true => exact H.pointerIn l h hv

open Classical in
/-- The end of the protection of one of the shared references. -/
theorem release_ok (H : Obeys R I) (inside : Bool) {s : S} {t : Nat} {w : Window} {c sh : List Ref}
    (h : I s c sh) (hm : inside = true → ∃ a, ⟨t, w, a⟩ ∈ sh) :
    ∃ s' sh', R.release inside t w s = some s' ∧ I s' c sh' ∧
      ∀ u, u ∈ sh' ↔ (u ∈ sh ∧ (inside = true → u ≠ ⟨t, w, true⟩)) ∨
        (inside = true ∧ u = ⟨t, w, false⟩) := by
  cases inside with
  | false => exact ⟨s, sh, rfl, h, by simp⟩
  | true =>
    obtain ⟨a, ha, hat⟩ : ∃ a, ⟨t, w, a⟩ ∈ sh ∧ (⟨t, w, true⟩ ∈ sh → a = true) := by
      by_cases ht : (⟨t, w, true⟩ : Ref) ∈ sh
      · exact ⟨true, ht, fun _ => rfl⟩
      · obtain ⟨a, ha⟩ := hm rfl
        exact ⟨a, ha, fun h => absurd h ht⟩
    have h1 : I s c (⟨t, w, a⟩ :: sh.filter (· ≠ ⟨t, w, true⟩)) := by
      refine H.weaken h (fun v hv => ?_) fun v hv _ => ?_
      · rcases List.mem_cons.1 hv with rfl | hv
        · exact ha
        · exact (List.mem_filter.1 hv).1
      · by_cases e : v = ⟨t, w, true⟩
        · subst e
          rw [hat hv]
          exact List.mem_cons_self
        · exact List.mem_cons_of_mem _ (List.mem_filter.2 ⟨hv, by simpa using e⟩)
    obtain ⟨s2, e2, h2⟩ := H.leaveShared (sh1 := []) h1
    refine ⟨s2, _, e2, h2, fun u => ?_⟩
    simp only [List.nil_append, List.mem_cons, List.mem_filter, decide_eq_true_eq, forall_const,
      true_and]
    exact or_comm

/-- The result: what it is known by in `matmul`, and what holds after the return. -/
theorem passMut_ok (H : Obeys R I) (inside : Bool) {s : S} {v : Ref} {c sh : List Ref}
    (h : I s (v :: c) sh) (hs : ∀ u ∈ sh, u.arg = false) :
    ∃ t s' a c' sh', R.passMut inside v.tag v.win s = some (t, s') ∧
      I s' (⟨t, v.win, a⟩ :: c') sh' ∧ (∀ u ∈ sh', u.arg = false) ∧
      ∀ s, I s (⟨t, v.win, a⟩ :: c') [] →
        ∃ s', R.release inside t v.win s = some s' ∧ I s' (v :: c) [] := by
  cases inside with
  | false => exact ⟨v.tag, s, v.arg, c, sh, rfl, h, hs, fun s hp => ⟨s, rfl, hp⟩⟩
  | true =>
    obtain ⟨t, s1, e1, h1⟩ := H.mutRef h hs (Sub.refl _)
    refine ⟨t, R.enter t s1, true, v :: c, [], by
      simp only [Rules.passMut, e1, Option.map_some, if_true], H.enter h1, by simp, fun s hp => ?_⟩
    obtain ⟨s2, e2, h2⟩ := H.leave (c1 := []) hp
    exact ⟨s2, e2, H.pop h2 rfl⟩

theorem reachMut_ok (H : Obeys R I) (G : Takes R I K) (inside : Bool) (l : List (List Nat)) {s : S}
    {v : Ref} {c sh : List Ref} (h : I s (v :: c) sh) (hs : ∀ u ∈ sh, u.arg = false) :
    ∃ p s', R.reachMut inside l v.tag v.win s = some (p, s') ∧
      I s' (⟨p, v.win, false⟩ :: v :: c) [] := by
  cases inside with
  | false => exact H.pointerMut h hs
  | true =>
    have h' : I s (v :: c) [] := H.weaken h (by simp) fun u hu ha => by
      rw [hs u hu] at ha
      cases ha
    obtain ⟨p, s1, e1, h1⟩ := G.pointer l h'
    exact ⟨p, s1, e1, G.finish h1⟩

/-- A factor changes. -/
theorem put_factor {c : Nat} {h : Nat → Held × S} {C E : Nat → List Ref}
    (hI : ∀ n, n ≠ c → I (h n).2 (C n) (E n)) {k : Nat} {s : S} {e : List Ref} (hs : I s (C k) e) :
    ∀ n, n ≠ c → I (put k s h n).2 (C n) (Function.update E k e n) := by
  intro n hn
  by_cases e : n = k
  · subst e
    simpa [put] using hs
  · simpa [put, e] using hI n hn

/-- The result changes. -/
theorem put_result {c : Nat} {h : Nat → Held × S} {C E : Nat → List Ref}
    (hI : ∀ n, n ≠ c → I (h n).2 (C n) (E n)) (s : S) :
    ∀ n, n ≠ c → I (put c s h n).2 (C n) (E n) := by
  intro n hn
  simpa [put, hn] using hI n hn

theorem put_self (k : Nat) (s : S) (h : Nat → Held × S) : (put k s h k).2 = s := by simp [put]

theorem put_other {k n : Nat} (hn : n ≠ k) (s : S) (h : Nat → Held × S) :
    (put k s h n).2 = (h n).2 := by simp [put, hn]

/-- More is usable after an update that adds references. -/
theorem usable_update {c : List Ref} {E : Nat → List Ref} {n k : Nat} {v : Ref}
    (h : Usable c (E n) v) {e : List Ref} (he : ∀ u ∈ E k, u ∈ e) :
    Usable c (Function.update E k e n) v := by
  by_cases hn : n = k
  · subst hn
    simp only [Function.update_self]
    exact h.imp id (he v)
  · simpa [Function.update_of_ne hn] using h

/-- What there was is still there after an update that adds references. -/
theorem mem_update {E : Nat → List Ref} {k : Nat} {new : List Ref} (n : Nat) {u : Ref} :
    u ∈ Function.update E k (new ++ E k) n ↔ (n = k ∧ u ∈ new) ∨ u ∈ E n := by
  by_cases hn : n = k
  · subst hn
    simp
  · simp [Function.update_of_ne hn, hn]

section
variable [Target]

/-- The product. -/
theorem product_ok (H : Obeys R I) (G : Takes R I K) (ia ib ic : Bool) {a b c : Nat} (hca : a ≠ c)
    (hcb : b ≠ c) {va vb vc : Handle} {ma mb mc : Mem α} (wa : View va.mat ma) (wb : View vb.mat mb)
    (wc : View vc.mat mc) (pa pb pc : Plan) (us : List Touch) {h : Nat → Held × S}
    {C E : Nat → List Ref} (hI : ∀ n, I (h n).2 (C n) (E n)) (hE : ∀ n, ∀ u ∈ E n, u.arg = false)
    (ua : Usable (C a) (E a) (refOf va)) (ub : Usable (C b) (E b) (refOf vb)) {rest : List Ref}
    (hc : C c = refOf vc :: rest) :
    ∃ h', R.product ia ib ic a b c va vb vc pa pb pc us h = some h' ∧ (∀ n, (h' n).1 = (h n).1) ∧
      ∀ n, I (h' n).2 (C n) (if n = c then [] else E n) := by
  have g0 : ∀ n, n ≠ c → I (h n).2 (C n) (E n) := fun n _ => hI n
  -- the operands are passed
  obtain ⟨ta, s1, na, e1, i1, ⟨aa, u1⟩, x1, y1⟩ := pass_ok H ia (hI a) ua
  have g1 := put_factor g0 i1
  have u1 : Usable (C a) (Function.update E a (na ++ E a) a) ⟨ta, windowOf va.mat, aa⟩ := by
    rw [Function.update_self]
    exact u1
  have ub1 : Usable (C b) (Function.update E a (na ++ E a) b) (refOf vb) :=
    usable_update ub (by simp +contextual)
  generalize hE1 : Function.update E a (na ++ E a) = E1 at g1 u1 ub1
  obtain ⟨tb, s2, nb, e2, i2, ⟨ab, u2⟩, x2, y2⟩ := pass_ok H ib (g1 b hcb) ub1
  have g2 := put_factor g1 i2
  have u2 : Usable (C b) (Function.update E1 b (nb ++ E1 b) b) ⟨tb, windowOf vb.mat, ab⟩ := by
    rw [Function.update_self]
    exact u2
  have ua2 : Usable (C a) (Function.update E1 b (nb ++ E1 b) a) ⟨ta, windowOf va.mat, aa⟩ :=
    usable_update u1 (by simp +contextual)
  generalize hE2 : Function.update E1 b (nb ++ E1 b) = E2 at g2 u2 ua2
  have hc0 := hI c
  rw [hc] at hc0
  obtain ⟨tc, s3, ac, rc, shc, e3, i3, z3, fin⟩ := passMut_ok H ic hc0 (hE c)
  have g3 := put_result g2 s3
  -- the layouts are looked up
  obtain ⟨s4, e4, i4⟩ := seek_ok H ia pa.before (g3 a hca) ua2
  have g4 := put_factor g3 i4
  rw [Function.update_eq_self] at g4
  obtain ⟨s5, e5, i5⟩ := seek_ok H ib pb.before (g4 b hcb) u2
  have g5 := put_factor g4 i5
  rw [Function.update_eq_self] at g5
  obtain ⟨s6, e6, i6⟩ := seek_ok H ic pc.before (v := ⟨tc, windowOf vc.mat, ac⟩) i3 (.inl rfl)
  have g6 := put_result g5 s6
  -- the pointers
  obtain ⟨qa, s7, e7, i7⟩ := reach_ok H ia pa.inner (g6 a hca) ua2
  have g7 := put_factor g6 i7
  have ub7 : Usable (C b) (Function.update E2 a (⟨qa, windowOf va.mat, false⟩ :: E2 a) b)
      ⟨tb, windowOf vb.mat, ab⟩ := usable_update u2 (by simp +contextual)
  have qa7 : ⟨qa, windowOf va.mat, false⟩ ∈
      Function.update E2 a (⟨qa, windowOf va.mat, false⟩ :: E2 a) a := by simp
  generalize hE3 : Function.update E2 a (⟨qa, windowOf va.mat, false⟩ :: E2 a) = E3 at g7 ub7 qa7
  obtain ⟨qb, s8, e8, i8⟩ := reach_ok H ib pb.inner (g7 b hcb) ub7
  have g8 := put_factor g7 i8
  have qb8 : ⟨qb, windowOf vb.mat, false⟩ ∈
      Function.update E3 b (⟨qb, windowOf vb.mat, false⟩ :: E3 b) b := by simp
  have qa8 : ⟨qa, windowOf va.mat, false⟩ ∈
      Function.update E3 b (⟨qb, windowOf vb.mat, false⟩ :: E3 b) a := by
    rcases usable_update (c := []) (E := E3) (n := a) (k := b) (.inr qa7)
      (e := ⟨qb, windowOf vb.mat, false⟩ :: E3 b) (by simp +contextual) with h | h
    · cases h
    · exact h
  generalize hE4 : Function.update E3 b (⟨qb, windowOf vb.mat, false⟩ :: E3 b) = E4 at g8 qb8 qa8
  obtain ⟨qc, s9, e9, i9⟩ := reachMut_ok H G ic pc.inner (v := ⟨tc, windowOf vc.mat, ac⟩) i6 z3
  have g9 := put_result g8 s9
  -- the kernel
  obtain ⟨h', ek, hh, gk⟩ := kernel_ok H (a := ⟨a, qa, va.mat⟩) (b := ⟨b, qb, vb.mat⟩)
    (c := ⟨c, qc, vc.mat⟩) wa wb wc
    (C := Function.update C c (⟨qc, windowOf vc.mat, false⟩ :: ⟨tc, windowOf vc.mat, ac⟩ :: rc))
    (E := Function.update E4 c []) (by simpa [Function.update_of_ne hca] using qa8)
    (by simpa [Function.update_of_ne hcb] using qb8) (by simp; rfl) (by simp) us
    (h := put c s9 (put b s8 (put a s7 (put c s6 (put b s5 (put a s4 (put c s3 (put b s2 (put a s1
      h)))))))))
    (by
      intro n
      by_cases hn : n = c
      · subst hn
        simpa [put] using i9
      · simpa [Function.update_of_ne hn] using g9 n hn)
  have gf : ∀ n, n ≠ c → I (h' n).2 (C n) (E4 n) := fun n hn => by
    simpa [Function.update_of_ne hn] using gk n
  have gc := gk c
  simp only [Function.update_self] at gc
  -- what is protected
  have mem4 : ∀ n u, u ∈ E4 n ↔ (n = b ∧ u = ⟨qb, windowOf vb.mat, false⟩) ∨
      (n = a ∧ u = ⟨qa, windowOf va.mat, false⟩) ∨ (n = b ∧ u ∈ nb) ∨ (n = a ∧ u ∈ na) ∨ u ∈ E n := by
    intro n u
    have b4 : u ∈ E4 n ↔ (n = b ∧ u ∈ [(⟨qb, windowOf vb.mat, false⟩ : Ref)]) ∨ u ∈ E3 n := by
      rw [← hE4]; exact mem_update (new := [_]) n
    have b3 : u ∈ E3 n ↔ (n = a ∧ u ∈ [(⟨qa, windowOf va.mat, false⟩ : Ref)]) ∨ u ∈ E2 n := by
      rw [← hE3]; exact mem_update (new := [_]) n
    have b2 : u ∈ E2 n ↔ (n = b ∧ u ∈ nb) ∨ u ∈ E1 n := by rw [← hE2]; exact mem_update n
    have b1 : u ∈ E1 n ↔ (n = a ∧ u ∈ na) ∨ u ∈ E n := by rw [← hE1]; exact mem_update n
    rw [b4, b3, b2, b1, List.mem_singleton, List.mem_singleton]
  -- the return
  obtain ⟨s10, sh10, e10, i10, m10⟩ := release_ok H ia (t := ta) (w := windowOf va.mat) (gf a hca)
    (fun hia => ⟨true, (mem4 a _).2 (.inr (.inr (.inr (.inl ⟨rfl, y1 hia⟩))))⟩)
  have g10 := put_factor gf i10
  have mem5 : ∀ n u, u ∈ Function.update E4 a sh10 n ↔
      (u ∈ E4 n ∧ (n = a → ia = true → u ≠ ⟨ta, windowOf va.mat, true⟩)) ∨
        (n = a ∧ ia = true ∧ u = ⟨ta, windowOf va.mat, false⟩) := by
    intro n u
    by_cases hn : n = a
    · subst hn
      simp [m10]
    · simp [hn]
  generalize Function.update E4 a sh10 = E5 at g10 mem5
  obtain ⟨s11, sh11, e11, i11, m11⟩ := release_ok H ib (t := tb) (w := windowOf vb.mat) (g10 b hcb)
    (by
      intro hib
      have hb : (⟨tb, windowOf vb.mat, true⟩ : Ref) ∈ E4 b :=
        (mem4 b _).2 (.inr (.inr (.inl ⟨rfl, y2 hib⟩)))
      by_cases he : b = a ∧ ia = true ∧ (⟨tb, windowOf vb.mat, true⟩ : Ref) = ⟨ta, windowOf va.mat, true⟩
      · obtain ⟨x, y, z⟩ := he
        simp only [Ref.mk.injEq, and_true] at z
        exact ⟨false, (mem5 b _).2 (.inr ⟨x, y, by rw [z.1, z.2]⟩)⟩
      · exact ⟨true, (mem5 b _).2 (.inl ⟨hb, fun x y z => he ⟨x, y, z⟩⟩)⟩)
  have g11 := put_factor g10 i11
  have mem6 : ∀ n u, u ∈ Function.update E5 b sh11 n ↔
      (u ∈ E5 n ∧ (n = b → ib = true → u ≠ ⟨tb, windowOf vb.mat, true⟩)) ∨
        (n = b ∧ ib = true ∧ u = ⟨tb, windowOf vb.mat, false⟩) := by
    intro n u
    by_cases hn : n = b
    · subst hn
      simp [m11]
    · simp [hn]
  generalize Function.update E5 b sh11 = E6 at g11 mem6
  obtain ⟨s12, e12, i12⟩ := fin _ (H.pop gc rfl)
  refine ⟨put c s12 (put b s11 (put a s10 h')), ?_, fun n => ?_, fun n => ?_⟩
  · have f1 : R.pass ia va.tag (windowOf va.mat) (h a).2 = some (ta, s1) := e1
    have f2 : R.pass ib vb.tag (windowOf vb.mat) (put a s1 h b).2 = some (tb, s2) := e2
    have f3 : R.passMut ic vc.tag (windowOf vc.mat) (put b s2 (put a s1 h) c).2 = some (tc, s3) := by
      rw [put_other (Ne.symm hcb), put_other (Ne.symm hca)]
      exact e3
    have f6 : R.seek ic pc.before tc (windowOf vc.mat)
        (put b s5 (put a s4 (put c s3 (put b s2 (put a s1 h)))) c).2 = some s6 := by
      rw [put_other (Ne.symm hcb), put_other (Ne.symm hca), put_self]
      exact e6
    have f9 : R.reachMut ic pc.inner tc (windowOf vc.mat)
        (put b s8 (put a s7 (put c s6 (put b s5 (put a s4 (put c s3 (put b s2 (put a s1
          h))))))) c).2 = some (qc, s9) := by
      rw [put_other (Ne.symm hcb), put_other (Ne.symm hca), put_self]
      exact e9
    have f12 : R.release ic tc (windowOf vc.mat) (put b s11 (put a s10 h') c).2 = some s12 := by
      rw [put_other (Ne.symm hcb), put_other (Ne.symm hca)]
      exact e12
    simp only [Rules.product, Option.bind_eq_bind, Option.pure_def]
    rw [f1, Option.bind_some, f2, Option.bind_some, f3, Option.bind_some, e4, Option.bind_some, e5,
      Option.bind_some, f6, Option.bind_some, e7, Option.bind_some, e8, Option.bind_some, f9,
      Option.bind_some, ek, Option.bind_some, e10, Option.bind_some, e11, Option.bind_some, f12,
      Option.bind_some]
  · rw [put_held, put_held, put_held, hh]
    simp only [put_held]
  · by_cases hn : n = c
    · subst hn
      rw [put_self, if_pos rfl, hc]
      exact i12
    · rw [put_other hn, if_neg hn]
      refine H.weaken (g11 n hn) (fun u hu => ?_) fun u hu ha => ?_
      · have hf := hE n u hu
        have ne : ∀ t w, u ≠ ⟨t, w, true⟩ := by
          rintro t w rfl
          cases hf
        exact (mem6 n u).2 (.inl ⟨(mem5 n u).2 (.inl ⟨(mem4 n u).2 (by simp [hu]), fun _ _ => ne _ _⟩),
          fun _ _ => ne _ _⟩)
      · rcases (mem6 n u).1 hu with ⟨h5, d5⟩ | ⟨-, -, rfl⟩
        · rcases (mem5 n u).1 h5 with ⟨h4, d4⟩ | ⟨-, -, rfl⟩
          · rcases (mem4 n u).1 h4 with ⟨-, rfl⟩ | ⟨-, rfl⟩ | ⟨hn', hu'⟩ | ⟨hn', hu'⟩ | h0
            · cases ha
            · cases ha
            · obtain ⟨x, y⟩ := x2 u hu'
              exact absurd y (d5 hn' x)
            · obtain ⟨x, y⟩ := x1 u hu'
              exact absurd y (d4 hn' x)
            · exact h0
          · cases ha
        · cases ha

/-- A product that is refused. -/
theorem refuse_ok (H : Obeys R I) (ia ib ic : Bool) {a b c : Nat} (hca : a ≠ c)
    (hcb : b ≠ c) {va vb vc : Handle}
    (pa pb pc : Plan) {h : Nat → Held × S}
    {C E : Nat → List Ref} (hI : ∀ n, I (h n).2 (C n) (E n)) (hE : ∀ n, ∀ u ∈ E n, u.arg = false)
    (ua : Usable (C a) (E a) (refOf va)) (ub : Usable (C b) (E b) (refOf vb)) {rest : List Ref}
    (hc : C c = refOf vc :: rest) :
    ∃ h', R.refuse ia ib ic a b c va vb vc pa pb pc h = some h' ∧ (∀ n, (h' n).1 = (h n).1) ∧
      ∀ n, I (h' n).2 (C n) (if n = c then [] else E n) := by
  have g0 : ∀ n, n ≠ c → I (h n).2 (C n) (E n) := fun n _ => hI n
  -- the operands are passed
  obtain ⟨ta, s1, na, e1, i1, ⟨aa, u1⟩, x1, y1⟩ := pass_ok H ia (hI a) ua
  have g1 := put_factor g0 i1
  have u1 : Usable (C a) (Function.update E a (na ++ E a) a) ⟨ta, windowOf va.mat, aa⟩ := by
    rw [Function.update_self]
    exact u1
  have ub1 : Usable (C b) (Function.update E a (na ++ E a) b) (refOf vb) :=
    usable_update ub (by simp +contextual)
  generalize hE1 : Function.update E a (na ++ E a) = E1 at g1 u1 ub1
  obtain ⟨tb, s2, nb, e2, i2, ⟨ab, u2⟩, x2, y2⟩ := pass_ok H ib (g1 b hcb) ub1
  have g2 := put_factor g1 i2
  have u2 : Usable (C b) (Function.update E1 b (nb ++ E1 b) b) ⟨tb, windowOf vb.mat, ab⟩ := by
    rw [Function.update_self]
    exact u2
  have ua2 : Usable (C a) (Function.update E1 b (nb ++ E1 b) a) ⟨ta, windowOf va.mat, aa⟩ :=
    usable_update u1 (by simp +contextual)
  generalize hE2 : Function.update E1 b (nb ++ E1 b) = E2 at g2 u2 ua2
  have hc0 := hI c
  rw [hc] at hc0
  obtain ⟨tc, s3, ac, rc, shc, e3, i3, z3, fin⟩ := passMut_ok H ic hc0 (hE c)
  have g3 := put_result g2 s3
  -- the layouts are looked up
  obtain ⟨s4, e4, i4⟩ := seek_ok H ia pa.before (g3 a hca) ua2
  have g4 := put_factor g3 i4
  rw [Function.update_eq_self] at g4
  obtain ⟨s5, e5, i5⟩ := seek_ok H ib pb.before (g4 b hcb) u2
  have g5 := put_factor g4 i5
  rw [Function.update_eq_self] at g5
  obtain ⟨s6, e6, i6⟩ := seek_ok H ic pc.before (v := ⟨tc, windowOf vc.mat, ac⟩) i3 (.inl rfl)
  have g6 := put_result g5 s6
  have gc : I s6 (⟨tc, windowOf vc.mat, ac⟩ :: rc) [] := H.weaken i6 (by simp) fun u hu ha => by
    rw [z3 u hu] at ha
    cases ha
  -- what is protected
  have mem4 : ∀ n u, u ∈ E2 n ↔ (n = b ∧ u ∈ nb) ∨ (n = a ∧ u ∈ na) ∨ u ∈ E n := by
    intro n u
    have b2 : u ∈ E2 n ↔ (n = b ∧ u ∈ nb) ∨ u ∈ E1 n := by rw [← hE2]; exact mem_update n
    have b1 : u ∈ E1 n ↔ (n = a ∧ u ∈ na) ∨ u ∈ E n := by rw [← hE1]; exact mem_update n
    rw [b2, b1]
  -- the return
  obtain ⟨s10, sh10, e10, i10, m10⟩ := release_ok H ia (t := ta) (w := windowOf va.mat) (g6 a hca)
    (fun hia => ⟨true, (mem4 a _).2 (.inr (.inl ⟨rfl, y1 hia⟩))⟩)
  have g10 := put_factor g6 i10
  have mem5 : ∀ n u, u ∈ Function.update E2 a sh10 n ↔
      (u ∈ E2 n ∧ (n = a → ia = true → u ≠ ⟨ta, windowOf va.mat, true⟩)) ∨
        (n = a ∧ ia = true ∧ u = ⟨ta, windowOf va.mat, false⟩) := by
    intro n u
    by_cases hn : n = a
    · subst hn
      simp [m10]
    · simp [hn]
  generalize Function.update E2 a sh10 = E5 at g10 mem5
  obtain ⟨s11, sh11, e11, i11, m11⟩ := release_ok H ib (t := tb) (w := windowOf vb.mat) (g10 b hcb)
    (by
      intro hib
      have hb : (⟨tb, windowOf vb.mat, true⟩ : Ref) ∈ E2 b :=
        (mem4 b _).2 (.inl ⟨rfl, y2 hib⟩)
      by_cases he : b = a ∧ ia = true ∧ (⟨tb, windowOf vb.mat, true⟩ : Ref) = ⟨ta, windowOf va.mat, true⟩
      · obtain ⟨x, y, z⟩ := he
        simp only [Ref.mk.injEq, and_true] at z
        exact ⟨false, (mem5 b _).2 (.inr ⟨x, y, by rw [z.1, z.2]⟩)⟩
      · exact ⟨true, (mem5 b _).2 (.inl ⟨hb, fun x y z => he ⟨x, y, z⟩⟩)⟩)
  have g11 := put_factor g10 i11
  have mem6 : ∀ n u, u ∈ Function.update E5 b sh11 n ↔
      (u ∈ E5 n ∧ (n = b → ib = true → u ≠ ⟨tb, windowOf vb.mat, true⟩)) ∨
        (n = b ∧ ib = true ∧ u = ⟨tb, windowOf vb.mat, false⟩) := by
    intro n u
    by_cases hn : n = b
    · subst hn
      simp [m11]
    · simp [hn]
  generalize Function.update E5 b sh11 = E6 at g11 mem6
  obtain ⟨s12, e12, i12⟩ := fin _ gc
  refine ⟨put c s12 (put b s11 (put a s10
    (put c s6 (put b s5 (put a s4 (put c s3 (put b s2 (put a s1 h)))))))), ?_, fun n => ?_, fun n => ?_⟩
  · have f1 : R.pass ia va.tag (windowOf va.mat) (h a).2 = some (ta, s1) := e1
    have f2 : R.pass ib vb.tag (windowOf vb.mat) (put a s1 h b).2 = some (tb, s2) := e2
    have f3 : R.passMut ic vc.tag (windowOf vc.mat) (put b s2 (put a s1 h) c).2 = some (tc, s3) := by
      rw [put_other (Ne.symm hcb), put_other (Ne.symm hca)]
      exact e3
    have f6 : R.seek ic pc.before tc (windowOf vc.mat)
        (put b s5 (put a s4 (put c s3 (put b s2 (put a s1 h)))) c).2 = some s6 := by
      rw [put_other (Ne.symm hcb), put_other (Ne.symm hca), put_self]
      exact e6
    have f12 : R.release ic tc (windowOf vc.mat) (put b s11 (put a s10
        (put c s6 (put b s5 (put a s4 (put c s3 (put b s2 (put a s1 h))))))) c).2 = some s12 := by
      rw [put_other (Ne.symm hcb), put_other (Ne.symm hca), put_self]
      exact e12
    simp only [Rules.refuse, Option.bind_eq_bind, Option.pure_def]
    rw [f1, Option.bind_some, f2, Option.bind_some, f3, Option.bind_some, e4, Option.bind_some, e5,
      Option.bind_some, f6, Option.bind_some, e10, Option.bind_some, e11, Option.bind_some, f12,
      Option.bind_some]
  · simp only [put_held]
  · by_cases hn : n = c
    · subst hn
      rw [put_self, if_pos rfl, hc]
      exact i12
    · rw [put_other hn, if_neg hn]
      refine H.weaken (g11 n hn) (fun u hu => ?_) fun u hu ha => ?_
      · have hf := hE n u hu
        have ne : ∀ t w, u ≠ ⟨t, w, true⟩ := by
          rintro t w rfl
          cases hf
        exact (mem6 n u).2 (.inl ⟨(mem5 n u).2 (.inl ⟨(mem4 n u).2 (by simp [hu]), fun _ _ => ne _ _⟩),
          fun _ _ => ne _ _⟩)
      · rcases (mem6 n u).1 hu with ⟨h5, d5⟩ | ⟨-, -, rfl⟩
        · rcases (mem5 n u).1 h5 with ⟨h4, d4⟩ | ⟨-, -, rfl⟩
          · rcases (mem4 n u).1 h4 with ⟨hn', hu'⟩ | ⟨hn', hu'⟩ | h0
            · obtain ⟨x, y⟩ := x2 u hu'
              exact absurd y (d5 hn' x)
            · obtain ⟨x, y⟩ := x1 u hu'
              exact absurd y (d4 hn' x)
            · exact h0
          · cases ha
        · cases ha

/-- The blocks of a command are as `BlockTame` says. -/
def OrderTame (cfg : Cfg) : Order → Prop
  | .deed _ d _ => Tame cfg d
  | .multiply _ _ _ _ _ _ _ => True

/-- One command. -/
theorem obeyIn_ok (H : Obeys R I) (G : Takes R I K) (cfg : Cfg) {mem : Nat → Mem α}
    {h : Nat → Body × S} (hI : ∀ n, HeldInv I (mem n) (h n).1.held (h n).2) (d : Order)
    (hd : OrderTame cfg d) :
    ∃ h', R.obeyIn cfg h d = some h' ∧ ∀ n, HeldInv I (mem n) (h' n).1.held (h' n).2 := by
  have stay : ∃ h', some h = some h' ∧ ∀ n, HeldInv I (mem n) (h' n).1.held (h' n).2 :=
    ⟨h, rfl, hI⟩
  cases d with
  | deed k d pl =>
    obtain ⟨b', s', e, hI'⟩ := stepIn_ok H G cfg (hI k) d hd pl
    refine ⟨_, by simp only [Rules.obeyIn, e, Option.map_some]; rfl, fun n => ?_⟩
    by_cases hn : n = k
    · subst hn; simpa using hI'
    · simpa [hn] using hI n
  | multiply a b c pa pb pc us =>
    simp only [Rules.obeyIn]
    split
    · rename_i va vb vc vcs ea eb ec
      split
      · rename_i hne
        obtain ⟨wa, ua⟩ := operand_usable (hI a.1) ea
        obtain ⟨wb, ub⟩ := operand_usable (hI b.1) eb
        have wc : View vc.mat (mem c) := (hI c).chain vc (by rw [ec]; simp)
        have both : ∃ h', (if va.mat.layout.dim.2 = vb.mat.layout.dim.1 ∧
              vc.mat.layout.dim.1 = va.mat.layout.dim.1 ∧ vc.mat.layout.dim.2 = vb.mat.layout.dim.2 then
            R.product ((h a.1).1.inside a.2) ((h b.1).1.inside b.2) ((h c).1.inside none) a.1 b.1 c
              va vb vc pa pb pc us fun n => ((h n).1.held, (h n).2)
          else
            R.refuse ((h a.1).1.inside a.2) ((h b.1).1.inside b.2) ((h c).1.inside none) a.1 b.1 c
              va vb vc pa pb pc fun n => ((h n).1.held, (h n).2)) = some h' ∧
            (∀ n, (h' n).1 = (h n).1.held) ∧ ∀ n, I (h' n).2 ((h n).1.held.chain.map refOf)
              (if n = c then [] else (h n).1.held.shared.map refOf) := by
          split
          · exact product_ok H G ((h a.1).1.inside a.2) ((h b.1).1.inside b.2)
              ((h c).1.inside none) (Ne.symm hne.1) (Ne.symm hne.2) wa wb wc pa pb pc us
              (h := fun n => ((h n).1.held, (h n).2)) (C := fun n => (h n).1.held.chain.map refOf)
              (E := fun n => (h n).1.held.shared.map refOf) (fun n => (hI n).inv)
              (fun n => (hI n).noArg) ua ub (rest := vcs.map refOf) (by simp [ec])
          · exact refuse_ok H ((h a.1).1.inside a.2) ((h b.1).1.inside b.2)
              ((h c).1.inside none) (Ne.symm hne.1) (Ne.symm hne.2) pa pb pc
              (h := fun n => ((h n).1.held, (h n).2)) (C := fun n => (h n).1.held.chain.map refOf)
              (E := fun n => (h n).1.held.shared.map refOf) (fun n => (hI n).inv)
              (fun n => (hI n).noArg) ua ub (rest := vcs.map refOf) (by simp [ec])
        obtain ⟨h', e, hh, g⟩ := both
        refine ⟨_, by rw [e]; rfl, fun n => ?_⟩
        have gn := g n
        by_cases hn : n = c
        · subst hn
          simp only [if_true] at gn ⊢
          refine ⟨?_, by rw [hh n]; exact (hI n).chain, by simp⟩
          rw [hh n]
          simpa using gn
        · simp only [if_neg hn] at gn ⊢
          refine ⟨?_, by rw [hh n]; exact (hI n).chain, by rw [hh n]; exact (hI n).shared⟩
          rw [hh n]
          exact gn
      · exact stay
    · exact stay

/-- A program. -/
theorem obeyAllIn_ok (H : Obeys R I) (G : Takes R I K) (cfg : Cfg) {mem : Nat → Mem α}
    (ds : List Order) (hd : ∀ d ∈ ds, OrderTame cfg d) : ∀ {h : Nat → Body × S},
    (∀ n, HeldInv I (mem n) (h n).1.held (h n).2) → (R.obeyAllIn cfg ds h).isSome := by
  induction ds with
  | nil => exact fun _ => rfl
  | cons d ds ih =>
    intro h hI
    obtain ⟨h1, e1, hI1⟩ := obeyIn_ok H G cfg hI d (hd d (by simp))
    simp only [Rules.obeyAllIn, e1, Option.bind_some]
    exact ih (fun d hd' => hd d (by simp [hd'])) hI1

/-- **C96 for products, Stacked Borrows.** A program that holds several matrices, of which any may have
its elements inside itself, makes blocks of them and multiplies matrices and blocks, never has
undefined behaviour in Stacked Borrows with protectors, in whatever order the kernel accesses the
elements, and whatever is looked up in the operands. -/
theorem C96_product_stacked (cfg : Cfg) (m : Nat → BaseMatrix) (mem : Nat → Mem α)
    (h : ∀ k, Sound (m k) (mem k)) (hm : ∀ k, IsMajor (m k).layout) (hc : ∀ k, Contiguous (m k).layout)
    (p : Nat → Nat) (arg : Nat → Bool) (inside : Nat → Bool) (g : Nat → GStacks)
    (hg : ∀ k, GStackReady (p k) (m k) (arg k) (g k)) (ds : List Order)
    (hd : ∀ d ∈ ds, OrderTame cfg d) :
    (GStacks.rules.obeyAllIn cfg ds fun k =>
      (⟨⟨[⟨p k, m k, arg k⟩], []⟩, if inside k then 1 else 0⟩, g k)).isSome := by
  refine obeyAllIn_ok (I := StackInv) (mem := mem) stack_obeys stack_takes cfg ds hd fun k =>
    ⟨stackReady_inv (hg k), ?_, by simp⟩
  simp only [List.mem_singleton]
  rintro v rfl
  exact view_of_contiguous (h k) (hm k) (hc k)

/-- **C96 for products, Tree Borrows.** The same in Tree Borrows with protectors. -/
theorem C96_product_tree (cfg : Cfg) (m : Nat → BaseMatrix) (mem : Nat → Mem α)
    (h : ∀ k, Sound (m k) (mem k)) (hm : ∀ k, IsMajor (m k).layout) (hc : ∀ k, Contiguous (m k).layout)
    (p : Nat → Nat) (arg : Nat → Bool) (inside : Nat → Bool) (T : Nat → GTree)
    (hg : ∀ k, GTreeReady (p k) (m k) (arg k) (T k)) (ds : List Order)
    (hd : ∀ d ∈ ds, OrderTame cfg d) :
    (GTree.rules.obeyAllIn cfg ds fun k =>
      (⟨⟨[⟨p k, m k, arg k⟩], []⟩, if inside k then 1 else 0⟩, T k)).isSome := by
  refine obeyAllIn_ok (I := TreeInv) (mem := mem) tree_obeys tree_takes cfg ds hd fun k =>
    ⟨treeReady_inv (hg k), ?_, by simp⟩
  simp only [List.mem_singleton]
  rintro v rfl
  exact view_of_contiguous (h k) (hm k) (hc k)

end

/-! ## Cases -/

/-- A matrix with its elements inside is multiplied by itself into another such; then a block of it by
a third matrix, which has its elements elsewhere, into a block of the second; the kernel reads,
writes and reads again. A write outside the matrix panics, and so does a product of shapes that do not
match. -/
def exOrders : List Order :=
  [.multiply (0, none) (0, none) 2 crateWay crateWay otherWay
     [.c 0 0 false, .a 0 0, .b 0 0, .c 0 0 true, .a 9 9, .c 9 9 true, .a 0 0, .c 0 1 true],
   .deed 0 (.set 0 0) crateWay, .deed 2 .call crateWay,
   .multiply (0, none) (1, none) 2 otherWay crateWay crateWay [.a 1 2, .b 2 1, .c 1 1 true, .a 1 2],
   .deed 0 (.block (0, 0) (2, 3)) crateWay, .deed 1 (.block (0, 1) (3, 2)) otherWay,
   .deed 2 (.blockMut (1, 1) (2, 2)) crateWay, .deed 2 (.set 99 0) otherWay,
   .multiply (0, none) (1, some 0) 2 otherWay crateWay crateWay [],
   .multiply (0, some 0) (1, some 0) 2 crateWay crateWay crateWay [.a 1 2, .b 2 1, .c 1 1 true, .a 1 2],
   .deed 2 .drop crateWay, .deed 2 (.set 9 9) otherWay, .deed 2 .drop crateWay,
   .deed 2 (.set 0 99) otherWay, .deed 2 (.set 0 0) otherWay]

example (cfg : Cfg) [Target] (hc : cfg.overflowChecks = true) :
    (GStacks.rules.obeyAllIn cfg exOrders fun k =>
      (⟨⟨[⟨0, exTen, false⟩], []⟩, if k ≠ 1 then 1 else 0⟩, freshGStacks)).isSome ∧
    (GTree.rules.obeyAllIn cfg exOrders fun k =>
      (⟨⟨[⟨0, exTen, false⟩], []⟩, if k ≠ 1 then 1 else 0⟩, freshGTree)).isSome := by
  have hd : ∀ d ∈ exOrders, OrderTame cfg d := by
    intro d hd
    simp only [exOrders, List.mem_cons, List.not_mem_nil, or_false] at hd
    rcases hd with rfl | rfl | rfl | rfl | rfl | rfl | rfl | rfl | rfl | rfl | rfl | rfl | rfl |
      rfl | rfl <;>
      simp [OrderTame, Tame, BlockTame, hc]
  have a := C96_product_stacked cfg (fun _ => exTen) (fun _ => exTenMem) (fun _ => exTen_sound)
      (fun _ => trivial) (fun _ => trivial) (fun _ => 0) (fun _ => false) (fun k => decide (k ≠ 1))
      (fun _ => freshGStacks) (fun _ => freshGStacks_ready _) _ hd
  have b := C96_product_tree cfg (fun _ => exTen) (fun _ => exTenMem) (fun _ => exTen_sound)
      (fun _ => trivial) (fun _ => trivial) (fun _ => 0) (fun _ => false) (fun k => decide (k ≠ 1))
      (fun _ => freshGTree) (fun _ => freshGTree_ready _) _ hd
  simp only [decide_eq_true_eq] at a b
  exact ⟨a, b⟩

/-- A kernel that writes to a factor is refused at once, and so is the write of another thread or of
a callback to the factor while it is protected. -/
example : ((GStacks.rules.pass true 0 ⟨0, 100⟩ freshGStacks).bind fun x =>
      (GStacks.rules.reach true [] x.1 ⟨0, 100⟩ x.2).bind fun y =>
        GStacks.rules.touch y.1 exTen true 0 0 y.2).isSome = false ∧
    ((GTree.rules.pass true 0 ⟨0, 100⟩ freshGTree).bind fun x =>
      (GTree.rules.reach true [] x.1 ⟨0, 100⟩ x.2).bind fun y =>
        GTree.rules.touch y.1 exTen true 0 0 y.2).isSome = false ∧
    ((GStacks.rules.pass true 0 ⟨0, 100⟩ freshGStacks).bind fun x =>
        GStacks.rules.touch 0 exTen true 0 0 x.2).isSome = false ∧
    ((GTree.rules.pass true 0 ⟨0, 100⟩ freshGTree).bind fun x =>
        GTree.rules.touch 0 exTen true 0 0 x.2).isSome = false := by
  refine ⟨by decide +kernel, by decide +kernel, by decide +kernel, by decide +kernel⟩

end Householder.Props
