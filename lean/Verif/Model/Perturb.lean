import Verif.Model.Evolution
/-! # Model of the perturbation demo on an elementary cellular automaton -/

namespace Verif

/-- `perturb` (`demos/perturbation_demo/perturbation_eca_demo.py:10-16`) for the node `c` (100 in the demo).  `q t` is the
random number drawn at timestep `t`; exactly one is drawn at each timestep. -/
def forceNode {I : Type} (c : Nat) (q : Nat → Nat) (pctx : PertCtx Nat Int I) : Except Err Int :=
  if pctx.node = c then .ok (q pctx.t) else .ok pctx.activity

end Verif
