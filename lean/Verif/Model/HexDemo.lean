import Verif.Model.Evolution
/-! # The rule of the hexagonal demo -/

namespace Verif
variable {L A I : Type}

/-- The activity rule of `demos/hexagonal_ca/hexagonal_ca_demo.py:8-9`. -/
def hexGrowRule (ctx : NodeCtx L A Int I) : Except Err Int :=
  if ctx.neighbourActs.sum = 1 then .ok 1 else .ok ctx.current

end Verif
