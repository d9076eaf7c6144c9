import Verif.Spec.Elementary
import Verif.Spec.SecondOrder
import Verif.Model.RuleClasses
/-! # Calls of reversible elementary automata (used by C149) -/

namespace Verif
section
variable {I σ κ : Type} [DecidableEq κ]

/-- A call of `evolve` with `cellular_automaton(n)`, `ReversibleRule(nks_ca_rule(R))`, the initial conditions `s`, past conditions that end with
`p`, `T` timesteps and no other options, and its result. -/
structure Spec.SecondOrderCall (n R T : Nat) (p s : Nat → Nat) (cfg : Config Nat Int Int I σ κ) (res : Evolved Nat Int Int σ) : Prop where
  cells : 3 ≤ n
  number : R < 256
  steps : 1 ≤ T
  ordinary : cfg.Ordinary (reversibleRule (nksCaRule (R : Int))) T
  memo : cfg.memoize = false
  pastRow : BinaryRow n p
  row : BinaryRow n s
  past : ∃ P : Conds Nat Int, cfg.past.getLast? = some P ∧ ∀ x, x < n → (P.toDict cfg.natLabel).get? x = some (p x : Int)
  call : ∃ (N : Net Nat Int) (r : Nat) (w : World Nat Int σ) (init : Option (Conds Nat Int)) (fuel : Nat),
    cellularAutomaton n 1 true = .ok N ∧ w.heap[r]? = some N ∧ (initDict cfg init).length = n ∧
    (∀ x, x < n → (initDict cfg init).get? x = some (s x : Int)) ∧ T ≤ fuel ∧ evolve fuel cfg init r w = .ok res

end
end Verif
