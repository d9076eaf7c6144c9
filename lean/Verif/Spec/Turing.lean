import Verif.Spec.Evolution
/-! # Turing machines on a circular tape -/

namespace Verif
section
variable {Q S : Type}

/-- Configuration of a machine: state, position of the head, tape. -/
structure Conf (Q S : Type) where
  state : Q
  pos : Nat
  tape : List S
  deriving DecidableEq, Repr

/-- Movement of the head on a circular tape of `n` cells: 0 is left, 1 is stay, 2 is right. -/
def moveHead (n pos : Nat) (direction : Int) : Option Nat :=
  if direction = 0 then some ((pos + n - 1) % n)
  else if direction = 1 then some pos
  else if direction = 2 then some ((pos + 1) % n)
  else none

/-- One step of the machine with transition function `δ`; `none` when no transition is defined. -/
def tmStep (δ : Q → S → Option (Q × S × Int)) (c : Conf Q S) : Option (Conf Q S) :=
  (c.tape[c.pos]?).bind fun s => (δ c.state s).bind fun (q, s', direction) =>
    (moveHead c.tape.length c.pos direction).map fun p => ⟨q, p, c.tape.set c.pos s'⟩

/-- `c 0, ..., c (T-1)` is a computation. -/
def Computation (δ : Q → S → Option (Q × S × Int)) (c : Nat → Conf Q S) (T : Nat) : Prop :=
  (c 0).pos < (c 0).tape.length ∧ ∀ t, t + 1 < T → tmStep δ (c t) = some (c (t + 1))

/-- The machine is to stop after `t` steps: the number of states asked for has been reached, or a step has entered the
terminating state. -/
def StopsAt (maxTimesteps : Option Int) (terminating : Option Q) (c : Nat → Conf Q S) (t : Nat) : Prop :=
  maxTimesteps = some ((t : Int) + 1) ∨ (1 ≤ t ∧ terminating = some (c t).state)

end
end Verif
