import Verif.Spec.CA
import Verif.Model.Rules
import Verif.Model.Topology
/-! # Reversible, number conserving and additive elementary cellular automata -/

namespace Verif

/-- A row of `n` cells with states 0 and 1. -/
def BinaryRow (n : Nat) (s : Nat → Nat) : Prop := ∀ x, x < n → s x < 2

/-- Different rows of `n` cells have different successors. -/
def ReversibleOn (n R : Nat) : Prop :=
  ∀ s s' : Nat → Nat, BinaryRow n s → BinaryRow n s' → (∀ x, x < n → eca n R s 1 x = eca n R s' 1 x) → ∀ x, x < n → s x = s' x

/-- Every row of `n` cells is the successor of a row. -/
def OntoOn (n R : Nat) : Prop :=
  ∀ y : Nat → Nat, BinaryRow n y → ∃ s, BinaryRow n s ∧ ∀ x, x < n → eca n R s 1 x = y x

/-- Number of cells in state 1. -/
def onesIn (n : Nat) (s : Nat → Nat) : Nat := ((List.range n).map s).sum

/-- A step keeps the number of cells in state 1. -/
def ConservesOn (n R : Nat) : Prop := ∀ s : Nat → Nat, BinaryRow n s → onesIn n (eca n R s 1) = onesIn n s

/-- A step of the cellwise sum modulo 2 is the cellwise sum modulo 2 of the steps. -/
def AdditiveOn (n R : Nat) : Prop :=
  ∀ s s' : Nat → Nat, BinaryRow n s → BinaryRow n s' → ∀ x, x < n →
    eca n R (fun y => (s y + s' y) % 2) 1 x = (eca n R s 1 x + eca n R s' 1 x) % 2

/-- The rule with left and right exchanged. -/
def mirrorRule (R : Nat) : Nat :=
  (((List.range 8).map (fun k => R / 2 ^ (4 * (k % 2) + 2 * (k / 2 % 2) + k / 4) % 2 * 2 ^ k))).sum

/-- The rule with the states 0 and 1 exchanged. -/
def complementRule (R : Nat) : Nat := ((List.range 8).map (fun k => (1 - R / 2 ^ (7 - k) % 2) * 2 ^ k)).sum

section
variable {I σ κ : Type} [DecidableEq κ]

/-- A call of `evolve` with `cellular_automaton(n)`, `nks_ca_rule(R)`, the initial conditions `s`, `T` timesteps and no other options
than memoization, and its result. -/
structure EcaCall (n R T : Nat) (s : Nat → Nat) (cfg : Config Nat Int Int I σ κ) (res : Evolved Nat Int Int σ) : Prop where
  cells : 3 ≤ n
  number : R < 256
  steps : 1 ≤ T
  ordinary : cfg.Ordinary (nksCaRule (R : Int)) T
  row : BinaryRow n s
  call : ∃ (N : Net Nat Int) (r : Nat) (w : World Nat Int σ) (init : Option (Conds Nat Int)) (fuel : Nat),
    cellularAutomaton n 1 true = .ok N ∧ w.heap[r]? = some N ∧ (initDict cfg init).length = n ∧
    (∀ x, x < n → (initDict cfg init).get? x = some (s x : Int)) ∧ T ≤ fuel ∧ evolve fuel cfg init r w = .ok res

/-- The activity of cell `x` in state `t` of the result. -/
def actOf (cfg : Config Nat Int Int I σ κ) (res : Evolved Nat Int Int σ) (t x : Nat) : Option Int :=
  (res.acts cfg t).bind (fun d => d.get? x)

end

end Verif
