import Verif.Spec.CA
/-! # Second-order elementary cellular automata ("rule R" of the NKS book), stated without the implementation -/

namespace Verif

/-- Elementary cellular automaton number `R` made reversible, on a ring of `n` cells: `p` is the row before the first,
`s` the first; each further row is the result of the rule, with the cells flipped that were 1 two rows before. -/
def ecaTwo (n R : Nat) (p s : Nat → Nat) : Nat → Nat → Nat
  | 0, x => p x
  | 1, x => s x
  | t + 2, x => (ecaRule R (ecaTwo n R p s (t + 1) ((x + n - 1) % n)) (ecaTwo n R p s (t + 1) x)
      (ecaTwo n R p s (t + 1) ((x + 1) % n)) + ecaTwo n R p s t x) % 2

end Verif
