import Verif.Props.Swarm
import Mathlib.Tactic.Linarith
import Mathlib.Algebra.Order.Field.Rat
/-! # C108: the minimum of the camel function -/

namespace Verif

/-- The terms in `y`, with a square of `x` that makes up for `x * y`. -/
theorem camel_part (l x y c : Rat) (hl : 0 < l) (hc : (4 + 1 / (4 * l)) ^ 2 / 16 ≤ c) :
    -c ≤ l * x ^ 2 + x * y + (-4 + 4 * y ^ 2) * y ^ 2 := by
  have h1 : l * x ^ 2 + x * y + (-4 + 4 * y ^ 2) * y ^ 2 =
      l * (x + y / (2 * l)) ^ 2 + (2 * y ^ 2 - (4 + 1 / (4 * l)) / 4) ^ 2 - (4 + 1 / (4 * l)) ^ 2 / 16 := by
    have : l ≠ 0 := ne_of_gt hl
    grind
  have h2 : 0 ≤ l * (x + y / (2 * l)) ^ 2 := mul_nonneg (le_of_lt hl) (sq_nonneg _)
  have h3 := sq_nonneg (2 * y ^ 2 - (4 + 1 / (4 * l)) / 4)
  linarith

/-- C108.  The minimum of the camel function that the demo names, to three digits: nothing is below `-1.032`, and at the two named points the
function is below `-1.0316`. -/
theorem C108_camel_minimum : (∀ x y, -1032 / 1000 ≤ camel [x, y]) ∧
    camel [898 / 10000, -7126 / 10000] < -10316 / 10000 ∧ camel [-898 / 10000, 7126 / 10000] < -10316 / 10000 := by
  refine ⟨?_, by decide +kernel, by decide +kernel⟩
  intro x y
  have e : ∀ l : Rat, camel [x, y] = (l * x ^ 2 + x * y + (-4 + 4 * y ^ 2) * y ^ 2) +
      x ^ 2 * (4 - l - (21 / 10) * x ^ 2 + (x ^ 2) ^ 2 / 3) := by
    intro l
    unfold camel
    grind
  have ht : 0 ≤ x ^ 2 := sq_nonneg x
  generalize hx : x ^ 2 = t at e ht
  rcases le_total t (29 / 1000) with h | h
  · have := camel_part (3938 / 1000) x y (1032 / 1000) (by norm_num) (by norm_num)
    have k : 0 ≤ t * (4 - 3938 / 1000 - (21 / 10) * t + t ^ 2 / 3) := mul_nonneg ht (by nlinarith)
    rw [e (3938 / 1000)]; rw [hx] at this; linarith
  · rcases le_total t 1 with h' | h'
    · have := camel_part 2 x y (10635 / 10000) (by norm_num) (by norm_num)
      have k : 315 / 10000 ≤ t * (4 - 2 - (21 / 10) * t + t ^ 2 / 3) := by
        nlinarith [mul_nonneg (sub_nonneg.2 h) (sub_nonneg.2 h'), mul_nonneg ht (mul_nonneg (sub_nonneg.2 h) (sub_nonneg.2 h')), mul_nonneg ht (sq_nonneg (t - 1))]
      rw [e 2]; rw [hx] at this; linarith
    · have := camel_part (6 / 10) x y (12192 / 10000) (by norm_num) (by norm_num)
      have k : 1872 / 10000 ≤ t * (4 - 6 / 10 - (21 / 10) * t + t ^ 2 / 3) := by
        nlinarith [mul_nonneg (sub_nonneg.2 h') (sq_nonneg (t - 3)), mul_nonneg ht (sq_nonneg (t - 315 / 100)), sq_nonneg (t - 3)]
      rw [e (6 / 10)]; rw [hx] at this; linarith

/-- The bound is not far from the least value. -/
example : camel [898 / 10000, -7126 / 10000] + 1032 / 1000 < 4 / 10000 := by have := C108_camel_minimum.2.1; linarith

end Verif
