import Verif.Model.Base

/-! # Lemmas on outcomes, arithmetic and loops -/

namespace Householder

namespace Out

@[simp] theorem bind_ok {α β : Type u} (a : α) (f : α → Out β) : (Out.ok a >>= f) = f a := rfl
@[simp] theorem bind_panic {α β : Type u} (f : α → Out β) : ((Out.panic : Out α) >>= f) = .panic := rfl
@[simp] theorem bind_ub {α β : Type u} (f : α → Out β) : ((Out.ub : Out α) >>= f) = .ub := rfl
@[simp] theorem pure_eq {α : Type u} (a : α) : (pure a : Out α) = .ok a := rfl

@[simp] theorem bind_ok_right {α : Type u} (x : Out α) : (x >>= fun a => Out.ok a) = x := by
  cases x <;> rfl

theorem bind_assoc' {α β γ : Type u} (x : Out α) (f : α → Out β) (g : β → Out γ) :
    (x >>= f) >>= g = x >>= fun a => f a >>= g := by cases x <;> rfl

instance : LawfulMonad Out :=
  LawfulMonad.mk' (m := Out)
    (id_map := fun x => by cases x <;> rfl)
    (pure_bind := fun _ _ => rfl)
    (bind_assoc := fun x f g => by cases x <;> rfl)

theorem bind_eq_ok {α β : Type u} {x : Out α} {f : α → Out β} {b : β} :
    (x >>= f) = .ok b ↔ ∃ a, x = .ok a ∧ f a = .ok b := by
  cases x <;> simp

theorem bind_eq_ub {α β : Type u} {x : Out α} {f : α → Out β} :
    (x >>= f) = .ub ↔ x = .ub ∨ ∃ a, x = .ok a ∧ f a = .ub := by
  cases x <;> simp

theorem bind_eq_panic {α β : Type u} {x : Out α} {f : α → Out β} :
    (x >>= f) = .panic ↔ x = .panic ∨ ∃ a, x = .ok a ∧ f a = .panic := by
  cases x <;> simp

theorem assert_pos {p : Prop} [Decidable p] (h : p) : Out.assert p = .ok () := by
  simp [Out.assert, h]

theorem assert_neg {p : Prop} [Decidable p] (h : ¬p) : Out.assert p = .panic := by
  simp [Out.assert, h]

@[simp] theorem assert_eq_ok {p : Prop} [Decidable p] (u : Unit) : Out.assert p = .ok u ↔ p := by
  unfold Out.assert; split <;> simp_all

@[simp] theorem assert_eq_panic {p : Prop} [Decidable p] : Out.assert p = .panic ↔ ¬p := by
  unfold Out.assert; split <;> simp_all

@[simp] theorem assert_ne_ub {p : Prop} [Decidable p] : ¬ Out.assert p = .ub := by
  unfold Out.assert; split <;> simp

end Out

theorem W_cases [Target] : (W = 65536 ∧ isizeMax = 32767) ∨
    (W = 4294967296 ∧ isizeMax = 2147483647) ∨
    (W = 18446744073709551616 ∧ isizeMax = 9223372036854775807) := by
  unfold W isizeMax
  cases Target.width <;> simp

theorem W_64 : W = 18446744073709551616 := rfl

theorem isizeMax_64 : isizeMax = 9223372036854775807 := rfl

/-- Linear arithmetic, for each width of `usize`. -/
macro "omega_width" : tactic => `(tactic| (rcases W_cases with ⟨hw, hi⟩ | ⟨hw, hi⟩ | ⟨hw, hi⟩ <;>
  (try simp only [hw, hi] at *) <;> omega))

/-- `decide`, for each width of `usize`. -/
macro "decide_width" : tactic =>
  `(tactic| (rename Target => t; obtain ⟨w⟩ := t; cases w <;> decide))

/-- `rfl`, for each width of `usize`. -/
macro "rfl_width" : tactic =>
  `(tactic| (rename Target => t; obtain ⟨w⟩ := t; cases w <;> rfl))

/-- `decide +kernel`, for each width of `usize`. -/
macro "decide_width_kernel" : tactic =>
  `(tactic| (rename Target => t; obtain ⟨w⟩ := t; cases w <;> decide +kernel))

theorem W_eq [Target] : W = 2 * isizeMax + 2 := by
  rcases W_cases with h | h | h <;> omega

theorem isizeMax_ge [Target] : 32767 ≤ isizeMax := by
  rcases W_cases with h | h | h <;> omega

theorem W_ge [Target] : 65536 ≤ W := by
  rcases W_cases with h | h | h <;> omega

theorem W_pos [Target] : 0 < W := by
  rcases W_cases with h | h | h <;> omega

theorem Cfg.mul_ok [Target] (cfg : Cfg) {a b : Nat} (h : a * b < W) : cfg.mul a b = .ok (a * b) := by
  simp [Cfg.mul, Cfg.wrap, h]

theorem Cfg.add_ok [Target] (cfg : Cfg) {a b : Nat} (h : a + b < W) : cfg.add a b = .ok (a + b) := by
  simp [Cfg.add, Cfg.wrap, h]

theorem Cfg.sub_ok [Target] (cfg : Cfg) {a b : Nat} (h : b ≤ a) : cfg.sub a b = .ok (a - b) := by
  simp [Cfg.sub, h]

/-- In checked mode or when it fits, a product that is returned is exact. -/
theorem Cfg.mul_exact [Target] {cfg : Cfg} {a b v : Nat} (hm : cfg.overflowChecks = true ∨ a * b < W)
    (h : cfg.mul a b = .ok v) : v = a * b ∧ a * b < W := by
  unfold Cfg.mul Cfg.wrap at h
  split at h
  · simp_all
  · rcases hm with hm | hm
    · simp_all
    · contradiction

theorem Cfg.add_exact [Target] {cfg : Cfg} {a b v : Nat} (hm : cfg.overflowChecks = true ∨ a + b < W)
    (h : cfg.add a b = .ok v) : v = a + b ∧ a + b < W := by
  unfold Cfg.add Cfg.wrap at h
  split at h
  · simp_all
  · rcases hm with hm | hm
    · simp_all
    · contradiction

theorem Cfg.sub_exact [Target] {cfg : Cfg} {a b v : Nat} (hm : cfg.overflowChecks = true ∨ b ≤ a)
    (h : cfg.sub a b = .ok v) : v = a - b ∧ b ≤ a := by
  unfold Cfg.sub at h
  split at h
  · simp_all
  · rcases hm with hm | hm
    · simp_all
    · contradiction

theorem Cfg.mul_ne_ub [Target] (cfg : Cfg) (a b : Nat) : cfg.mul a b ≠ .ub := by
  unfold Cfg.mul Cfg.wrap; repeat' split
  all_goals simp

theorem Cfg.add_ne_ub [Target] (cfg : Cfg) (a b : Nat) : cfg.add a b ≠ .ub := by
  unfold Cfg.add Cfg.wrap; repeat' split
  all_goals simp

theorem Cfg.sub_ne_ub [Target] (cfg : Cfg) (a b : Nat) : cfg.sub a b ≠ .ub := by
  unfold Cfg.sub; repeat' split
  all_goals simp

theorem udiv_ok {a b : Nat} (h : b ≠ 0) : udiv a b = .ok (a / b) := by simp [udiv, h]
theorem umod_ok {a b : Nat} (h : b ≠ 0) : umod a b = .ok (a % b) := by simp [umod, h]

/-- The loop does nothing for `n = 0`. -/
@[simp] theorem forRange_zero {σ : Type u} (body : Nat → σ → Out σ) (s : σ) :
    forRange 0 body s = .ok s := rfl

theorem forRange_succ {σ : Type u} (n : Nat) (body : Nat → σ → Out σ) (s : σ) :
    forRange (n + 1) body s = forRange n body s >>= body n := by
  simp [forRange, List.range_succ, List.foldlM_append]

/-- Loop rule: an invariant that every iteration preserves while succeeding. -/
theorem forRange_inv {σ : Type u} {n : Nat} {body : Nat → σ → Out σ} {s : σ}
    (P : Nat → σ → Prop) (h0 : P 0 s)
    (hs : ∀ i s, i < n → P i s → ∃ s', body i s = .ok s' ∧ P (i + 1) s') :
    ∃ s', forRange n body s = .ok s' ∧ P n s' := by
  induction n with
  | zero => exact ⟨s, rfl, h0⟩
  | succ n ih =>
    obtain ⟨s1, e1, p1⟩ := ih (fun i s hi => hs i s (by omega))
    obtain ⟨s2, e2, p2⟩ := hs n s1 (by omega) p1
    exact ⟨s2, by rw [forRange_succ, e1]; exact e2, p2⟩

/-- Loop rule for partial correctness: an invariant that every iteration preserves
whenever it succeeds. -/
theorem forRange_inv_of_ok {σ : Type u} {n : Nat} {body : Nat → σ → Out σ} {s s' : σ}
    (P : Nat → σ → Prop) (h0 : P 0 s)
    (hs : ∀ i s s', i < n → P i s → body i s = .ok s' → P (i + 1) s')
    (h : forRange n body s = .ok s') : P n s' := by
  induction n generalizing s' with
  | zero => simp at h; subst h; exact h0
  | succ n ih =>
    rw [forRange_succ, Out.bind_eq_ok] at h
    obtain ⟨s1, e1, e2⟩ := h
    exact hs n s1 s' (by omega) (ih (fun i s s' hi => hs i s s' (by omega)) e1) e2

end Householder
