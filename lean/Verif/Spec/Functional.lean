import Verif.Spec.Requests
import Verif.Spec.Lattice
/-! # Specification of the functional network automaton -/

namespace Verif.Spec
variable {L A : Type} [DecidableEq L]

/-- `x` can be reached from a node of `S` along at most `t` edges. -/
inductive Within (N : Net L A) (S : L → Prop) : Nat → L → Prop
  | start {t : Nat} {x : L} : S x → Within N S t x
  | step {t : Nat} {x y : L} : Within N S t x → parallel N x y ≠ [] → Within N S (t + 1) y

/-- State `t` of the functional network automaton that starts with the network `N` and the active nodes `S`: a node is active (1) if it can be
reached from a node of `S` along at most `t` edges and inactive (0) otherwise, and the edges between active nodes are gone (except in state 0). -/
structure SpreadState (N : Net L A) (S : L → Prop) (t : Nat) (d : Dict L Int) (N' : Net L A) : Prop where
  labels : N'.labels = N.labels
  length : d.length = N.labels.length
  active : ∀ x ∈ N.labels, Within N S t x → d.get? x = some 1
  inactive : ∀ x ∈ N.labels, ¬ Within N S t x → d.get? x = some 0
  cut : ∀ i j, 1 ≤ t → Within N S t i → Within N S t j → parallel N' i j = []
  kept : ∀ i j, t = 0 ∨ ¬ Within N S t i ∨ ¬ Within N S t j → parallel N' i j = parallel N i j
  attrs : ∀ x, attrsOf N' x = attrsOf N x

/-- Sum of the coordinates of node `x` of the lattice with dimensions `dim`: its distance from node 0. -/
def coordSum (dim : List Nat) (x : Nat) : Nat := ((List.range dim.length).map (fun i => coord dim i x)).sum

end Verif.Spec
