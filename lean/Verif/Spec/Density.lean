import Verif.Spec.Rules
/-! # Local rules on a ring, and the density classification task (used by C121)

A row of `n` cells on a ring is a function `s` on the cell numbers; only its values below `n` matter. -/

namespace Verif.Spec

/-- The `2r + 1` cells around cell `x` of a ring of `n` cells, from left to right. -/
def ringWindow (n r : Nat) (s : Nat → Nat) (x : Nat) : List Nat :=
  (List.range (2 * r + 1)).map (fun k => s ((x + n - r + k) % n))

/-- One step of the automaton with radius `r` and local rule `f`: every cell looks at its window. -/
def localStep (n r : Nat) (f : List Nat → Nat) (s : Nat → Nat) : Nat → Nat := fun x => f (ringWindow n r s x)

/-- The rows of the automaton. -/
def localCA (n r : Nat) (f : List Nat → Nat) (s : Nat → Nat) : Nat → Nat → Nat
  | 0 => s
  | t + 1 => localStep n r f (localCA n r f s t)

/-- The number of cells showing 1. -/
def onesCount (n : Nat) (s : Nat → Nat) : Nat := (List.range n).countP (fun x => s x == 1)

/-- The value shown by more than half of the cells (of an odd number of binary cells). -/
def majorityOf (n : Nat) (s : Nat → Nat) : Nat := if n < 2 * onesCount n s then 1 else 0

/-- From some time on, all cells show `m`. -/
def SettlesOn (n r : Nat) (f : List Nat → Nat) (s : Nat → Nat) (m : Nat) : Prop :=
  ∃ t0, ∀ t, t0 ≤ t → ∀ x, x < n → localCA n r f s t x = m

/-- The number written by binary digits, most significant first. -/
def bitsValue (l : List Nat) : Nat := l.foldl (fun a b => 2 * a + b) 0

/-- The local rule with number `R`, read as Mitchell et al. read it: the leftmost of the `2^m` binary digits of `R`
belongs to the window of zeros. -/
def mitchellRule (R : Nat) (l : List Nat) : Nat := digit 2 R (2 ^ l.length - 1 - bitsValue l)

end Verif.Spec
