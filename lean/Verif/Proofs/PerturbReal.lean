import Mathlib.Analysis.Complex.ExponentialBounds
import Mathlib.Tactic.Linarith
import Mathlib.Tactic.NormNum
import Verif.Model.PerturbReal
import Verif.Spec.PerturbReal
/-! # Bounds of the function of the continuous rules -/

namespace Verif
open Spec

theorem exp_neg_nine : Real.exp (-9) ≤ 1 / 7000 := by
  have h1 : (2.7 : ℝ) < Real.exp 1 := by have := Real.exp_one_gt_d9; linarith
  have h2 : Real.exp 9 = Real.exp 1 ^ 9 := by rw [← Real.exp_nat_mul]; norm_num
  have h3 : (7000 : ℝ) ≤ Real.exp 9 := by
    rw [h2]
    calc (7000 : ℝ) ≤ 2.7 ^ 9 := by norm_num
      _ ≤ Real.exp 1 ^ 9 := pow_le_pow_left₀ (by norm_num) h1.le 9
  rw [Real.exp_neg, one_div]
  exact inv_anti₀ (by norm_num) h3

theorem exp_far {y : ℝ} (h : 9 ≤ 10 * y ^ 2) : Real.exp (-(10 * y ^ 2)) ≤ 1 / 7000 :=
  le_trans (Real.exp_le_exp.2 (by linarith)) exp_neg_nine

theorem exp_at_most_one (y : ℝ) : Real.exp (-(10 * y ^ 2)) ≤ 1 := Real.exp_le_one_iff.2 (by nlinarith [sq_nonneg y])

theorem exp_near (y : ℝ) : 1 - 10 * y ^ 2 ≤ Real.exp (-(10 * y ^ 2)) := by
  have := Real.add_one_le_exp (-(10 * y ^ 2))
  linarith

theorem twoBumps_pos (x : ℝ) : 0 < twoBumps x := add_pos (Real.exp_pos _) (Real.exp_pos _)

theorem twoBumps_le (x : ℝ) : twoBumps x ≤ 1 + Real.exp (-10) := by
  unfold twoBumps
  by_cases h : x ≤ 2
  · have : Real.exp (-(10 * (x - 3) ^ 2)) ≤ Real.exp (-10) := Real.exp_le_exp.2 (by nlinarith)
    have := exp_at_most_one (x - 1)
    linarith
  · have : Real.exp (-(10 * (x - 1) ^ 2)) ≤ Real.exp (-10) := Real.exp_le_exp.2 (by nlinarith)
    have := exp_at_most_one (x - 3)
    linarith

/-- Near 1 and 3 the value is near 1. -/
theorem twoBumps_odd {x e : ℝ} (k : ℝ) (hk : k = 1 ∨ k = 3) (h : |x - k| ≤ e) (he : e ≤ 1 / 20) :
    1 - 10 * e ^ 2 ≤ twoBumps x ∧ twoBumps x ≤ 1 + 1 / 7000 := by
  obtain ⟨h1, h2⟩ := abs_le.1 h
  have hsq : (x - k) ^ 2 ≤ e ^ 2 := sq_le_sq' h1 h2
  unfold twoBumps
  rcases hk with rfl | rfl
  · have a := exp_near (x - 1)
    have b := exp_at_most_one (x - 1)
    have c := exp_far (y := x - 3) (by nlinarith)
    have d := Real.exp_pos (-(10 * (x - 3) ^ 2))
    constructor <;> linarith
  · have a := exp_near (x - 3)
    have b := exp_at_most_one (x - 3)
    have c := exp_far (y := x - 1) (by nlinarith)
    have d := Real.exp_pos (-(10 * (x - 1) ^ 2))
    constructor <;> linarith

/-- Near 0, 2 and 4 the value is near 0. -/
theorem twoBumps_even {x e : ℝ} (k : ℝ) (hk : k = 0 ∨ k = 2 ∨ k = 4) (h : |x - k| ≤ e) (he : e ≤ 1 / 20) : twoBumps x ≤ 2 / 7000 := by
  obtain ⟨h1, h2⟩ := abs_le.1 h
  unfold twoBumps
  have a := exp_far (y := x - 1) (by rcases hk with rfl | rfl | rfl <;> nlinarith)
  have b := exp_far (y := x - 3) (by rcases hk with rfl | rfl | rfl <;> nlinarith)
  linarith

theorem pushed_near {noise u v : ℝ} (hn : 0 ≤ noise) (hu : 0 ≤ u) (hu1 : u ≤ 1) : |pushed noise u v - v| ≤ noise := by
  have h1 : 0 ≤ u * noise := mul_nonneg hu hn
  have h2 : u * noise ≤ noise := by nlinarith
  unfold pushed
  rw [abs_le]
  split
  · constructor <;> linarith
  · split <;> constructor <;> linarith

end Verif
