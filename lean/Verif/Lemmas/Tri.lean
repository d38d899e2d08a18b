import Verif.Lemmas.Layout
import Verif.Lemmas.F64

/-! # The `f64` conversion of upper triangular layouts -/

namespace Householder.Spec

/-- The first logical index at which `UpperTriangular::convert_1d_2d` goes wrong. -/
def firstBadIndex : Nat := 2 ^ 53 + 2 ^ 26 - 1

theorem triRow_correct {i a : ℕ} (hi : i < firstBadIndex) (h1 : a * (a + 1) / 2 ≤ i)
    (h2 : i < (a + 1) * (a + 2) / 2) : F64.triRow i = a := by
  have t1 := two_tri a
  have t2 : 2 * ((a + 1) * (a + 2) / 2) = (a + 1) * (a + 2) := two_tri (a + 1)
  rcases Nat.lt_or_ge i (2 ^ 53) with h | h
  · exact F64.triRow_eq h (by omega) (by omega)
  · rw [F64.triRow_big h hi]
    unfold firstBadIndex at hi
    rcases Nat.lt_trichotomy a (2 ^ 27 - 1) with hlt | heq | hgt
    · have h3 := Nat.mul_le_mul (show a + 1 ≤ 2 ^ 27 - 1 by omega) (show a + 2 ≤ 2 ^ 27 by omega)
      have : (2 ^ 27 - 1) * 2 ^ 27 < 2 * 2 ^ 53 := by norm_num
      omega
    · exact heq.symm
    · have h3 := Nat.mul_le_mul (show 2 ^ 27 ≤ a by omega) (show 2 ^ 27 + 1 ≤ a + 1 by omega)
      have : 2 ^ 27 * (2 ^ 27 + 1) = 2 * (2 ^ 53 + 2 ^ 26) := by norm_num
      omega

/-- With the right row, `convert_1d_2d` returns the position with the given index. -/
theorem tri_convert_1d_2d_of_row [Target] (cfg : Cfg) {u : UpperTriangular} {r c : Nat}
    (hs : Stored (.upperTriangular u) r c) (hW : u.dim * (u.dim + 1) < W)
    (hrow : F64.triRow (index (.upperTriangular u) r c) = u.dim - r - 1) :
    u.convert_1d_2d cfg (index (.upperTriangular u) r c) = .ok (r, c) := by
  obtain ⟨hr, hc, hu⟩ := hs
  have hrc := hu u rfl
  have hr' : r < u.dim := hr
  have hc' : c < u.dim := hc
  simp only [index] at *
  obtain ⟨a, ha⟩ : ∃ a, u.dim - r - 1 = a := ⟨_, rfl⟩
  have ha1 : u.dim - r = a + 1 := by omega
  have hidx : (u.dim - r) * (u.dim - r - 1) / 2 = a * (a + 1) / 2 := by
    rw [ha, ha1, Nat.mul_comm]
  rw [hidx, ha] at hrow
  rw [hidx]
  have t1 := two_tri a
  have e1 : a * (a + 1) ≤ u.dim * (u.dim + 1) := Nat.mul_le_mul (by omega) (by omega)
  have hrW : u.dim * 1 ≤ u.dim * (u.dim + 1) := Nat.mul_le_mul_left _ (by omega)
  have hsum : r + (a * (a + 1) / 2 + (c - r)) < W := by
    have e3 : u.dim * (u.dim + 1) = a * (a + 1) + (u.dim - a) * (u.dim + 1) + a * (u.dim - a) := by
      obtain ⟨d, hd⟩ : ∃ d, u.dim = a + d := ⟨u.dim - a, by omega⟩
      rw [hd, Nat.add_sub_cancel_left]; ring
    have e4 : 1 * (u.dim + 1) ≤ (u.dim - a) * (u.dim + 1) := Nat.mul_le_mul_right _ (by omega)
    omega
  unfold UpperTriangular.convert_1d_2d
  rw [hrow]
  have d2 : udiv (a * (a + 1)) 2 = .ok (a * (a + 1) / 2) := udiv_ok (by decide)
  have hn1 : u.dim - 1 - a = r := by omega
  simp only [Cfg.sub_ok cfg (show 1 ≤ u.dim by omega), Out.bind_ok,
    Cfg.sub_ok cfg (show a ≤ u.dim - 1 by omega), hn1, Cfg.add_ok cfg hsum,
    Cfg.add_ok cfg (show a + 1 < W by omega), Cfg.mul_ok cfg (show a * (a + 1) < W by omega), d2,
    Cfg.sub_ok cfg (show a * (a + 1) / 2 ≤ r + (a * (a + 1) / 2 + (c - r)) by omega),
    Out.pure_eq]
  congr 2
  omega

/-- Below the first bad index, `convert_1d_2d` returns the position with that index. -/
theorem tri_convert_1d_2d_ok [Target] (cfg : Cfg) {u : UpperTriangular} {r c : Nat}
    (hs : Stored (.upperTriangular u) r c) (hW : u.dim * (u.dim + 1) < W)
    (hb : index (.upperTriangular u) r c < firstBadIndex) :
    u.convert_1d_2d cfg (index (.upperTriangular u) r c) = .ok (r, c) := by
  refine tri_convert_1d_2d_of_row cfg hs hW ?_
  obtain ⟨hr, hc, hu⟩ := hs
  have hrc := hu u rfl
  have hr' : r < u.dim := hr
  have hc' : c < u.dim := hc
  simp only [index] at *
  obtain ⟨a, ha⟩ : ∃ a, u.dim - r - 1 = a := ⟨_, rfl⟩
  have ha1 : u.dim - r = a + 1 := by omega
  have hidx : (u.dim - r) * (u.dim - r - 1) / 2 = a * (a + 1) / 2 := by
    rw [ha, ha1, Nat.mul_comm]
  rw [hidx] at hb ⊢
  rw [ha]
  apply triRow_correct hb (by omega)
  have := tri_succ a
  omega

/-- With the next row, `convert_1d_2d` returns a position in the row above, left of the
diagonal, or overflows. -/
theorem tri_convert_1d_2d_next [Target] (cfg : Cfg) {u : UpperTriangular} {r c : Nat}
    (hs : Stored (.upperTriangular u) r c) (hW : u.dim * (u.dim + 1) < W)
    (hi : 1 ≤ index (.upperTriangular u) r c)
    (hrow : F64.triRow (index (.upperTriangular u) r c) = u.dim - r) :
    u.convert_1d_2d cfg (index (.upperTriangular u) r c) =
      if u.dim - c + 1 ≤ r then .ok (r - 1, r - 1 - (u.dim - c))
      else if cfg.overflowChecks then .panic
      else .ok ((W + r - 1) % W, W + r - 1 - (u.dim - c)) := by
  obtain ⟨hr, hc, hu⟩ := hs
  have hrc := hu u rfl
  have hr' : r < u.dim := hr
  have hc' : c < u.dim := hc
  simp only [index] at *
  obtain ⟨a, ha⟩ : ∃ a, u.dim - r - 1 = a := ⟨_, rfl⟩
  have ha1 : u.dim - r = a + 1 := by omega
  have hidx : (u.dim - r) * (u.dim - r - 1) / 2 = a * (a + 1) / 2 := by
    rw [ha, ha1, Nat.mul_comm]
  rw [hidx] at hi hrow ⊢
  rw [ha1] at hrow
  have t0 := two_tri a
  have t1 := two_tri (a + 1)
  have ts := tri_succ a
  have e1 : (a + 1) * (a + 1 + 1) ≤ u.dim * (u.dim + 1) := Nat.mul_le_mul (by omega) (by omega)
  have hdW : u.dim * 2 ≤ u.dim * (u.dim + 1) := Nat.mul_le_mul_left _ (by omega)
  unfold UpperTriangular.convert_1d_2d
  rw [hrow]
  have d2 : udiv ((a + 1) * (a + 1 + 1)) 2 = .ok ((a + 1) * (a + 1 + 1) / 2) := udiv_ok (by decide)
  generalize hA : (a + 1) * (a + 1 + 1) = A at *
  generalize hB : a * (a + 1) / 2 = B at *
  rw [Cfg.sub_ok cfg (show 1 ≤ u.dim by omega)]
  simp only [Out.bind_ok]
  by_cases h0 : r = 0
  · subst h0
    rw [if_neg (by omega)]
    by_cases hch : cfg.overflowChecks
    · rw [if_pos hch]
      simp only [Cfg.sub, if_neg (show ¬ a + 1 ≤ u.dim - 1 by omega), if_pos hch]
      rfl
    · rw [if_neg hch]
      have s1 : cfg.sub (u.dim - 1) (a + 1) = .ok (W - 1) := by
        simp only [Cfg.sub, if_neg (show ¬ a + 1 ≤ u.dim - 1 by omega), if_neg hch]
        congr 1; omega_width
      have s2 : cfg.add (W - 1) (B + (c - 0)) = .ok (B + c - 1) := by
        simp only [Cfg.add, Cfg.wrap, if_neg (show ¬ W - 1 + (B + (c - 0)) < W by omega), if_neg hch]
        congr 1; omega_width
      have s3 : cfg.sub (B + c - 1) (A / 2) = .ok (W + 0 - 1 - (u.dim - c)) := by
        simp only [Cfg.sub, if_neg (show ¬ A / 2 ≤ B + c - 1 by omega), if_neg hch]
        congr 1; omega_width
      simp only [s1, Out.bind_ok, s2, Cfg.add_ok cfg (show a + 1 + 1 < W by omega),
        Cfg.mul_ok cfg (show (a + 1) * (a + 1 + 1) < W by omega), hA, d2, s3, Out.pure_eq]
      congr 2
      omega_width
  · have s1 : cfg.sub (u.dim - 1) (a + 1) = .ok (r - 1) := by
      rw [Cfg.sub_ok cfg (by omega)]; congr 1; omega
    simp only [s1, Out.bind_ok, Cfg.add_ok cfg (show r - 1 + (B + (c - r)) < W by omega),
      Cfg.add_ok cfg (show a + 1 + 1 < W by omega),
      Cfg.mul_ok cfg (show (a + 1) * (a + 1 + 1) < W by omega), hA, d2]
    split_ifs with h1 h2
    · rw [Cfg.sub_ok cfg (by omega)]
      simp only [Out.bind_ok, Out.pure_eq]
      congr 2; omega
    · simp only [Cfg.sub, if_neg (show ¬ A / 2 ≤ r - 1 + (B + (c - r)) by omega), if_pos h2]
      rfl
    · simp only [Cfg.sub, if_neg (show ¬ A / 2 ≤ r - 1 + (B + (c - r)) by omega), if_neg h2,
        Out.bind_ok, Out.pure_eq]
      congr 2 <;> omega_width

theorem tri_convert_1d_2d_late [Target] (cfg : Cfg) (u : UpperTriangular) {i p t : Nat}
    (hp : F64.triRow i = p) (ht : p * (p + 1) = 2 * t) (hi : i + 1 = t) (htW : 2 * t < W)
    (hn : p + 2 ≤ u.dim) (hW : u.dim + t < W) :
    u.convert_1d_2d cfg i = .ok (u.dim - 1 - p, u.dim - 1 - p - 1) := by
  unfold UpperTriangular.convert_1d_2d
  rw [hp]
  have d2 : udiv (2 * t) 2 = .ok t := by simp [udiv]
  have hp1 : 1 ≤ p := by
    rcases Nat.eq_zero_or_pos p with rfl | h
    · omega
    · exact h
  have hpp : p * 1 ≤ p * (p + 1) := Nat.mul_le_mul_left _ (by omega)
  simp only [Cfg.sub_ok cfg (show 1 ≤ u.dim by omega), Out.bind_ok,
    Cfg.sub_ok cfg (show p ≤ u.dim - 1 by omega),
    Cfg.add_ok cfg (show u.dim - 1 - p + i < W by omega),
    Cfg.add_ok cfg (show p + 1 < W by omega),
    Cfg.mul_ok cfg (show p * (p + 1) < W by omega), ht, d2,
    Cfg.sub_ok cfg (show t ≤ u.dim - 1 - p + i by omega),
    Out.pure_eq]
  congr 2
  omega

/-- At the first bad index, for every matrix with more than `2^27 + 1` rows, the returned
position is below the diagonal. -/
theorem tri_convert_1d_2d_bad (cfg : Cfg) (u : UpperTriangular) (hn : 134217730 ≤ u.dim)
    (hW : u.dim < 2 ^ 63) :
    u.convert_1d_2d cfg firstBadIndex =
      .ok (u.dim - 1 - 134217728, u.dim - 1 - 134217728 - 1) := by
  refine tri_convert_1d_2d_late cfg u (t := 9007199321849856) F64.triRow_wrong ?_ ?_ ?_ hn ?_
  · norm_num
  · norm_num [firstBadIndex]
  · norm_num [W_64]
  · rw [W_64]; omega

end Householder.Spec
