import Verif.Spec.Dynamics
/-! # Specification of automata whose rule does not depend on the time -/

namespace Verif.Spec
variable {L V : Type}

/-- State of node `x` after `t` steps from `s`: node `x` has the neighbours `nb x`, and its new state is `g` of the node, its
state and the states of its neighbours. -/
def localRun (nb : L → List L) (g : L → V → List V → V) (s : L → V) : Nat → L → V
  | 0, x => s x
  | t + 1, x => g x (localRun nb g s t x) ((nb x).map (localRun nb g s t))

end Verif.Spec
