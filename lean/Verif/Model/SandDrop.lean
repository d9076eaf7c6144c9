import Verif.Model.Sandpile
/-! # Model of the perturbation of the sandpile demo (`demos/sandpiles/sandpile_demo.py`) -/

namespace Verif

/-- `perturb` (`sandpile_demo.py:11-15`); in the demo `when` is 85 and `where_` is 1034. -/
def dropGrain {I : Type} (when where_ : Nat) (pctx : PertCtx Nat Int I) : Except Err Int :=
  if pctx.t = when ∧ pctx.node = where_ then .ok (pctx.activity + 1) else .ok pctx.activity

end Verif
