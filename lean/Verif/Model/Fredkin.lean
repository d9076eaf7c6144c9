import Verif.Model.Evolution
import Verif.Model.Topology
/-! # Model of the rule of `demos/fredkin_self_replicating_ca` -/

namespace Verif

/-- `activity_rule` of Fredkin's automaton
(`demos/fredkin_self_replicating_ca/fredkin_self_replicating_ca_moore_demo.py:22-23` with `p = 2`,
`demos/fredkin_self_replicating_ca/fredkin_self_replicating_ca_vonneumann_demo.py:22-23` with `p = 2`,
`demos/fredkin_self_replicating_ca/fredkin_self_replicating_ca_multicolor_demo.py:22-23` with `p = 11`).  The integers are
unbounded; those of `np.sum` have 64 bits.  `%` of a positive `p` is the nonnegative remainder in both languages. -/
def fredkinRule {A I : Type} (p : Nat) (c : NodeCtx Nat A Int I) : Except Err Int :=
  .ok ((c.neighbourActs.sum - c.current) % (p : Int))

end Verif
