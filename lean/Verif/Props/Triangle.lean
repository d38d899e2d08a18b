import Verif.Props.Layouts
import Verif.Lemmas.TriBig
import Verif.Lemmas.Memory

/-!
# C09 at every index: where the conversion through `f64` is right, and what it does elsewhere

`C09_partial` and `C09_false_at` (Props/Layouts) give the first wrong index. Here the outcome is
determined at every index of every triangle, in both build modes.
-/

namespace Householder.Props

open Spec

/-- The row and the column of an index, from the position. -/
theorem tri_bounds [Target] {u : UpperTriangular} {r c : Nat} (h1 : r ≤ c) (h2 : c < u.dim)
    (hfit : u.dim * (u.dim + 1) < W) :
    Stored (.upperTriangular u) r c ∧
      index (.upperTriangular u) r c = (u.dim - r) * (u.dim - r - 1) / 2 + (c - r) ∧
      (u.dim - r - 1) * (u.dim - r - 1 + 1) ≤ 2 * index (.upperTriangular u) r c ∧
      2 * index (.upperTriangular u) r c + 2 * (u.dim - c) =
        (u.dim - r - 1 + 1) * (u.dim - r - 1 + 2) ∧
      index (.upperTriangular u) r c < 2 ^ 63 := by
  obtain ⟨a, ha⟩ : ∃ a, u.dim - r - 1 = a := ⟨_, rfl⟩
  have ha1 : u.dim - r = a + 1 := by omega
  have hidx : index (.upperTriangular u) r c = a * (a + 1) / 2 + (c - r) := by
    simp only [index]; rw [ha, ha1, Nat.mul_comm]
  have t0 := two_tri a
  have t1 : 2 * ((a + 1) * (a + 2) / 2) = (a + 1) * (a + 2) := two_tri (a + 1)
  have ts := tri_succ a
  have e1 : (a + 1) * (a + 2) ≤ u.dim * (u.dim + 1) := Nat.mul_le_mul (by omega) (by omega)
  refine ⟨⟨by show r < u.dim; omega, h2, fun u' he => ?_⟩, by simp only [index], ?_, ?_, ?_⟩
  · cases he; exact h1
  · rw [hidx, ha]; omega
  · rw [hidx, ha]; omega
  · rw [hidx]; omega_width

/-- **C09, exactly.** In every triangle, at every stored position and in both build modes:
`convert_1d_2d` of the index of the position returns that position if the index, rounded to 53
bits, passes the test `RowKept` in whole numbers; otherwise it returns a position in the row
above and left of the diagonal, or overflows. -/
theorem C09_outcome [Target] (cfg : Cfg) (u : UpperTriangular) (hfit : u.dim * (u.dim + 1) < W)
    (r c : Nat) (h1 : r ≤ c) (h2 : c < u.dim) :
    u.convert_1d_2d cfg ((u.dim - r) * (u.dim - r - 1) / 2 + (c - r)) =
      if RowKept ((u.dim - r) * (u.dim - r - 1) / 2 + (c - r)) (u.dim - r - 1) then .ok (r, c)
      else if u.dim - c + 1 ≤ r then .ok (r - 1, r - 1 - (u.dim - c))
      else if cfg.overflowChecks then .panic
      else .ok ((W + r - 1) % W, W + r - 1 - (u.dim - c)) := by
  obtain ⟨hs, hidx, b1, b2, b3⟩ := tri_bounds h1 h2 hfit
  rw [← hidx]
  have hrow := triRow_kept b3 b1 (by omega)
  split_ifs at hrow ⊢ with hk h3 h4
  · exact tri_convert_1d_2d_of_row cfg hs hfit hrow
  all_goals
    have hi : 1 ≤ index (.upperTriangular u) r c := by
      by_contra h0
      refine hk (rowKept_small (by omega) b1 (by omega))
    have hn := tri_convert_1d_2d_next cfg hs hfit hi (by rw [hrow]; omega)
    rw [hn]
  · rw [if_pos h3]
  · rw [if_neg h3, if_pos h4]
  · rw [if_neg h3, if_neg h4]

/-- **C09, exactly where it holds.** The conversion inverts the logical index at precisely the
indices that pass the test in whole numbers. -/
theorem C09_exact [Target] (cfg : Cfg) (u : UpperTriangular) (hfit : u.dim * (u.dim + 1) < W)
    (r c : Nat) (h1 : r ≤ c) (h2 : c < u.dim) :
    TriInverts cfg u ((u.dim - r) * (u.dim - r - 1) / 2 + (c - r)) ↔
      RowKept ((u.dim - r) * (u.dim - r - 1) / 2 + (c - r)) (u.dim - r - 1) := by
  have ho := C09_outcome cfg u hfit r c h1 h2
  obtain ⟨hs, hidx, b1, b2, b3⟩ := tri_bounds h1 h2 hfit
  have hcnt : count (.upperTriangular u) < W := lt_of_le_of_lt (Nat.div_le_self _ _) hfit
  have hd : u.dim * 2 ≤ u.dim * (u.dim + 1) := Nat.mul_le_mul_left _ (by omega)
  constructor
  · rintro ⟨r', c', he, h3, h4, -⟩
    rw [ho] at he
    split_ifs at he with hk h5 h6
    · exact hk
    all_goals
      simp only [Out.ok.injEq, Prod.mk.injEq] at he
    · omega
    · rcases Nat.eq_zero_or_pos r with rfl | hr
      · omega_width
      · omega_width
  · intro hk
    rw [if_pos hk] at ho
    refine ⟨r, c, ho, h1, h2, ?_⟩
    rw [← hidx]
    exact convert_2d_1d_ok cfg hs hcnt hfit

/-- **C09, partial: all but the last places of a row.** At index `i` the conversion is right
unless fewer than `3 * 2^(log2 i - 52)` places are left in the row, `c` included. -/
theorem C09_places_partial [Target] (cfg : Cfg) (u : UpperTriangular) (hfit : u.dim * (u.dim + 1) < W)
    (r c : Nat) (h1 : r ≤ c) (h2 : c < u.dim)
    (hgap : c + 3 * 2 ^ (Nat.log 2 ((u.dim - r) * (u.dim - r - 1) / 2 + (c - r)) - 52) ≤ u.dim) :
    TriInverts cfg u ((u.dim - r) * (u.dim - r - 1) / 2 + (c - r)) := by
  rw [C09_exact cfg u hfit r c h1 h2]
  obtain ⟨hs, hidx, b1, b2, b3⟩ := tri_bounds h1 h2 hfit
  rw [← hidx] at hgap ⊢
  exact rowKept_of_gap b3 b1 (by omega)

/-- **C09, what is left of it everywhere.** At every index of every triangle, in both build
modes, a position returned by `convert_1d_2d` is the right one, or it is no position of a stored
element: checked access to any matrix of this layout at the position panics. -/
theorem C09_never_another_element [Target] (cfg : Cfg) (u : UpperTriangular)
    (hfit : u.dim * (u.dim + 1) < W) (i : Nat) (hi : i < u.dim * (u.dim + 1) / 2) (r c : Nat)
    (he : u.convert_1d_2d cfg i = .ok (r, c)) :
    (r ≤ c ∧ c < u.dim ∧ u.convert_2d_1d cfg r c = .ok i) ∨
    (¬ (r ≤ c ∧ c < u.dim) ∧
      ∀ (α : Type) (m : BaseMatrix) (mem : Mem α), m.layout = .upperTriangular u →
        m.get cfg mem r c = .panic ∧ m.get_mut cfg r c = .panic) := by
  obtain ⟨r0, c0, hs, rfl⟩ := exists_index (l := .upperTriangular u) hi
  have h1 := hs.2.2 u rfl
  have h2 : c0 < u.dim := hs.2.1
  obtain ⟨-, hidx, -⟩ := tri_bounds h1 h2 hfit
  have ho := C09_outcome cfg u hfit r0 c0 h1 h2
  rw [← hidx, he] at ho
  have hcnt : count (.upperTriangular u) < W := lt_of_le_of_lt (Nat.div_le_self _ _) hfit
  have hd : u.dim * 2 ≤ u.dim * (u.dim + 1) := Nat.mul_le_mul_left _ (by omega)
  by_cases hk : RowKept (index (.upperTriangular u) r0 c0) (u.dim - r0 - 1)
  · rw [if_pos hk] at ho
    simp only [Out.ok.injEq, Prod.mk.injEq] at ho
    obtain ⟨rfl, rfl⟩ := ho
    exact .inl ⟨h1, h2, convert_2d_1d_ok cfg hs hcnt hfit⟩
  · right
    rw [if_neg hk] at ho
    have hbad : ¬ (r ≤ c ∧ c < u.dim) := by
      split_ifs at ho with h5 h6
      all_goals
        simp only [Out.ok.injEq, Prod.mk.injEq] at ho
        omega_width
    refine ⟨hbad, fun α m mem hm => ?_⟩
    by_cases hin : r < u.dim ∧ c < u.dim
    · have hp := tri_convert_panic cfg u (r := r) (c := c) (by omega)
      constructor
      · unfold BaseMatrix.get BaseMatrix.get_unchecked
        rw [hm, assert_dimension_ok hin.1 hin.2]
        simp only [Out.bind_ok, Layout.convert_2d_raw, hp.2]
        rfl
      · unfold BaseMatrix.get_mut BaseMatrix.get_unchecked_mut
        rw [hm, assert_dimension_ok hin.1 hin.2]
        simp only [Out.bind_ok, Layout.convert_2d_raw, hp.2]
        rfl
    · exact ⟨get_panic cfg m mem (by rw [hm]; exact hin), get_mut_panic cfg m (by rw [hm]; exact hin)⟩

/-- The test at the first wrong index and at its neighbours. -/
example : ¬ RowKept (2 ^ 53 + 2 ^ 26 - 1) (2 ^ 27 - 1) ∧ RowKept (2 ^ 53 + 2 ^ 26 - 2) (2 ^ 27 - 1) ∧
    RowKept (2 ^ 53 + 2 ^ 26) (2 ^ 27) := by decide +kernel

/-- In a triangle with `2^32 - 1` rows, the largest that fits, the last 512 columns of the first
row are wrong, and no others of that row among the 600 last. -/
example : (List.range 600).all (fun j =>
    let i := (2 ^ 32 - 1) * 2 ^ 32 / 2 - 1 - j
    decide (RowKept i (2 ^ 32 - 2)) == decide (512 ≤ j)) = true := by decide +kernel

example : (2 ^ 32 - 1) * (2 ^ 32 - 1 + 1) < W := by decide

end Householder.Props
