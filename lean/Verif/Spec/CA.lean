import Verif.Spec.Evolution
import Verif.Spec.Rules
/-! # Specification of whole runs of cellular automata -/

namespace Verif

/-- New state of a cell of the elementary cellular automaton number `R` from the states of its left neighbour, itself
and its right neighbour. -/
def ecaRule (R left centre right : Nat) : Nat := R / 2 ^ (4 * left + 2 * centre + right) % 2

/-- State of cell `x` of elementary cellular automaton number `R` on a ring of `n` cells after `t` steps from `s`. -/
def eca (n R : Nat) (s : Nat → Nat) : Nat → Nat → Nat
  | 0, x => s x
  | t + 1, x => ecaRule R (eca n R s t ((x + n - 1) % n)) (eca n R s t x) (eca n R s t ((x + 1) % n))

/-- The eight cells around a cell of a `rows × cols` torus. -/
def around (rows cols a b : Nat) : List (Nat × Nat) :=
  let u := (a + rows - 1) % rows
  let d := (a + 1) % rows
  let l := (b + cols - 1) % cols
  let r := (b + 1) % cols
  [(u, l), (u, b), (u, r), (a, l), (a, r), (d, l), (d, b), (d, r)]

/-- Conway's Life on the torus after `t` steps from `s`. -/
def life (rows cols : Nat) (s : Nat → Nat → Bool) : Nat → Nat → Nat → Bool
  | 0, a, b => s a b
  | t + 1, a, b => conway (life rows cols s t a b)
      ((around rows cols a b).countP (fun p => life rows cols s t p.1 p.2))

section
variable {L A V I σ κ : Type} [DecidableEq L] [DecidableEq V] [DecidableEq κ]

/-- An ordinary call of `evolve`: `timesteps=T`, the stateless activity rule `G`, no topology rule, no perturbation, no
compression, activities persisted, the default memoization key.  The other arguments, `memoize` among them, are
arbitrary. -/
structure Config.Ordinary (cfg : Config L A V I σ κ) (G : NodeCtx L A V I → Except Err V) (T : Nat) : Prop where
  rule : cfg.PureRule G
  pert : cfg.perturbation = none
  top : cfg.topology = none
  input : cfg.input = .timesteps T
  key : cfg.key = none
  persist : cfg.persistActs = true
  compression : cfg.compression = false

/-- The result has `T` states and the activity of node `x < n` in state `t` is `f t x`; there are `n` activities. -/
def ShowsRun (cfg : Config Nat A V I σ κ) (res : Evolved Nat A V σ) (T n : Nat) (f : Nat → Nat → V) : Prop :=
  res.states.length = T ∧ ∀ t, t < T → ∃ d, res.acts cfg t = some d ∧ d.length = n ∧
    ∀ x, x < n → d.get? x = some (f t x)

end
end Verif
