import Verif.Spec.TorusCA
import Verif.Spec.CA
import Verif.Spec.Fields
/-! # Specification of some dynamical systems -/

namespace Verif.Spec

/-- Position and velocity of a spring with `k / m = 6` after `t` steps, by the semi-implicit Euler method (the velocity changes with the new
position). -/
def spring (h : Rat) (q : Rat × Rat) : Nat → Rat × Rat
  | 0 => q
  | t + 1 =>
    let p := spring h q t
    (p.1 + h * p.2, p.2 - 6 * h * (p.1 + h * p.2))

/-- The same by the (explicit) Euler method. -/
def springEuler (h : Rat) (q : Rat × Rat) : Nat → Rat × Rat
  | 0 => q
  | t + 1 =>
    let p := springEuler h q t
    (p.1 + h * p.2, p.2 - 6 * h * p.1)

/-- Twice the energy per mass. -/
def springEnergy (q : Rat × Rat) : Rat := q.2 ^ 2 + 6 * q.1 ^ 2

/-- Euler's method for the Lorenz equations. -/
def lorenz (a b r h : Rat) (q : Rat × Rat × Rat) : Nat → Rat × Rat × Rat
  | 0 => q
  | t + 1 =>
    let p := lorenz a b r h q t
    (p.1 + h * (a * (p.2.1 - p.1)), p.2.1 + h * (r * p.1 - p.2.1 - p.1 * p.2.2), p.2.2 + h * (p.1 * p.2.1 - b * p.2.2))

/-- Iterates of the logistic map. -/
def logistic (g x : Rat) : Nat → Rat
  | 0 => x
  | t + 1 => g * logistic g x t * (1 - logistic g x t)

/-- Gray and Scott's model with feed rate `f` and kill rate `k`, the four values around given as a list. -/
def grayScott (ru rv f k : Rat) (q : Rat × Rat) (l : List (Rat × Rat)) : Rat × Rat :=
  (q.1 + ru * ((l.map Prod.fst).sum - 4 * q.1) - q.1 * q.2 ^ 2 + f * (1 - q.1),
   q.2 + rv * ((l.map Prod.snd).sum - 4 * q.2) + q.1 * q.2 ^ 2 - k * q.2)

/-- The fraction of half the sum of three values, towards zero. -/
def halfSum (l m r : Rat) : Rat :=
  let v := (l + m + r) / 2
  if v < 0 then -(-v - (-v).floor) else v - v.floor

/-- Sum over the cells of a grid. -/
def gridTotal (rows cols : Nat) (f : Nat → Nat → Rat) : Rat := ringTotal rows (fun a => ringTotal cols (f a))

end Verif.Spec

namespace Verif

/-- The result has `T` states; the activities of state `t` are those of the labels `ls`, with the values `f t`. -/
def ShowsOn {L A V I σ κ : Type} [DecidableEq L] (cfg : Config L A V I σ κ) (res : Evolved L A V σ) (T : Nat) (ls : List L) (f : Nat → L → V) : Prop :=
  res.states.length = T ∧ ∀ t, t < T → ∃ d, res.acts cfg t = some d ∧ d.length = ls.length ∧ ∀ x ∈ ls, d.get? x = some (f t x)

end Verif
