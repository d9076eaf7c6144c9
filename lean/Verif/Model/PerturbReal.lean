import Mathlib.Analysis.SpecialFunctions.Exp
import Verif.Model.Evolution
/-! # The continuous rules of the perturbation demo (`demos/perturbation_demo/perturbation_demo.py`)

Floats are real numbers. -/

namespace Verif
section
variable {L A I : Type}

/-- The function λ of both rules (`demos/perturbation_demo/perturbation_demo.py:22-23, 34-35`). -/
noncomputable def bumps (x : ℝ) : ℝ := Real.exp (-10 * (x - 1) ^ 2) + Real.exp (-10 * (x - 3) ^ 2)

/-- `algebraic_rule_90` (`demos/perturbation_demo/perturbation_demo.py:16-25`). -/
noncomputable def algebraicRule90 (ctx : NodeCtx L A ℝ I) : Except Err ℝ :=
  match ctx.neighbourActs with
  | a :: _ :: c :: _ => .ok (bumps (a + c))
  | _ => .error .indexError

/-- `algebraic_rule_30` (`demos/perturbation_demo/perturbation_demo.py:27-37`); unpacking another number of values raises a
`ValueError`. -/
noncomputable def algebraicRule30 (ctx : NodeCtx L A ℝ I) : Except Err ℝ :=
  match ctx.neighbourActs with
  | [a, b, c] => .ok (bumps (a + b + c + b * c))
  | _ => .error .valueError

/-- `np.sign` of a number (`demos/perturbation_demo/perturbation_demo.py:14`). -/
noncomputable def npSign (x : ℝ) : ℝ := if x < 0 then -1 else if x = 0 then 0 else 1

/-- `perturbation` (`demos/perturbation_demo/perturbation_demo.py:9-14`) with the amount `noise` (0.02 in the demo); `u t x` is the
random number drawn for node `x` at timestep `t`. -/
noncomputable def noisePert (noise : ℝ) (u : Nat → Nat → ℝ) (pctx : PertCtx Nat ℝ I) : Except Err ℝ :=
  .ok (pctx.activity + npSign (pctx.activity - 1 / 2) * u pctx.t pctx.node * noise)

end
end Verif
