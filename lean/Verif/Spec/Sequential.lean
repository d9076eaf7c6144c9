import Verif.Spec.CA
/-! # Sequential elementary cellular automata -/

namespace Verif.Spec

/-- Only the given cell of a ring of `n` cells is updated. -/
def seqStep (n R : Nat) (s : Nat → Nat) (cell : Option Nat) (x : Nat) : Nat :=
  if cell = some x then ecaRule R (s ((x + n - 1) % n)) (s x) (s ((x + 1) % n)) else s x

/-- The states after `t` updates, one cell at a time in the given order, again and again. -/
def seqRun (n R : Nat) (order : List Nat) (s : Nat → Nat) : Nat → Nat → Nat
  | 0 => s
  | t + 1 => seqStep n R (seqRun n R order s t) order[t % order.length]?

/-- The parity of the number of cells `i` up to `x` that are 1 and for which `k` and the distance `x - i` have no binary
digit 1 in common. -/
def overlapFree (s : Nat → Nat) (k x : Nat) : Nat :=
  ((List.range (x + 1)).filter fun i => s i == 1 && (k &&& (x - i)) == 0).length % 2

end Verif.Spec
