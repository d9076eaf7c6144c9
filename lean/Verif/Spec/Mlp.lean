/-! # Spec: feed-forward networks -/

namespace Verif.Spec

/-- Output `j` of layer `t` of a network without biases: layer `t + 1` applies `act (t + 1)` to the products with the matrix
`W t` (column, row). -/
def feedForward (n : Nat) (W : Nat → Nat → Nat → Rat) (act : Nat → Rat → Rat) (x : Nat → Rat) : Nat → Nat → Rat
  | 0, i => x i
  | t + 1, j => act (t + 1) (((List.range n).map (fun i => W t i j * feedForward n W act x t i)).sum)

/-- The positive part. -/
def posPart (x : Rat) : Rat := max x 0

end Verif.Spec
