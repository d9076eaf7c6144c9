import Verif.Spec.Dynamics
/-! # What the majority vote does on an undirected network, stated without the implementation -/

namespace Verif.Spec

/-- Every voter adopts `1` if more than half of its neighbours are `1`, and `0` otherwise, all at once. -/
def votes {L : Type} (nb : L → List L) (s : L → Int) : Nat → L → Int
  | 0, x => s x
  | t + 1, x => if ((nb x).length : Int) < 2 * ((nb x).map (votes nb s t)).sum then 1 else 0

/-- Neighbourhoods of an undirected network on the nodes `ls`: closed, without repetition, symmetric, of odd size. -/
structure OddUndirected {L : Type} (ls : List L) (nb : L → List L) : Prop where
  nodup : ls.Nodup
  closed : ∀ x ∈ ls, ∀ y ∈ nb x, y ∈ ls
  once : ∀ x ∈ ls, (nb x).Nodup
  symm : ∀ x ∈ ls, ∀ y ∈ ls, (y ∈ nb x ↔ x ∈ nb y)
  odd : ∀ x ∈ ls, (nb x).length % 2 = 1

/-- The number of pairs of neighbours, both directions counted. -/
def pairsOf {L : Type} (ls : List L) (nb : L → List L) : Nat := (ls.map (fun x => (nb x).length)).sum

/-- The columns with a non-zero entry in row `x` of an `n` by `n` matrix, ascending. -/
def rowOf (M : List (List Int)) (n x : Nat) : List Nat :=
  (List.range n).filter (fun y => decide ((M[x]?).bind (fun r => r[y]?) ≠ some 0))

end Verif.Spec
