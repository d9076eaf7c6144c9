import Mathlib.Analysis.SpecialFunctions.Exp
import Verif.Spec.CA
/-! # Spec: continuous automata with noise -/

namespace Verif.Spec

/-- State of cell `x` of a ring of `n` cells after `t` steps from `s`: `φ` of the states of the left neighbour, the cell and the
right neighbour, to which `ψ t x` is applied. -/
def noisyRing (n : Nat) (φ : ℝ → ℝ → ℝ → ℝ) (ψ : Nat → Nat → ℝ → ℝ) (s : Nat → ℝ) : Nat → Nat → ℝ
  | 0, x => s x
  | t + 1, x => ψ (t + 1) x (φ (noisyRing n φ ψ s t ((x + n - 1) % n)) (noisyRing n φ ψ s t x) (noisyRing n φ ψ s t ((x + 1) % n)))

/-- Two bumps of height 1, at 1 and at 3. -/
noncomputable def twoBumps (x : ℝ) : ℝ := Real.exp (-(10 * (x - 1) ^ 2)) + Real.exp (-(10 * (x - 3) ^ 2))

/-- A value is pushed away from one half by the part `u` of `noise`. -/
noncomputable def pushed (noise u v : ℝ) : ℝ := if v < 1 / 2 then v - u * noise else if 1 / 2 < v then v + u * noise else v

end Verif.Spec
