import Verif.Spec.Plane
/-! # Growth from a single cell (used by C125) -/

namespace Verif.Spec

/-- Pascal's triangle. -/
def pascal : Nat → Nat → Nat
  | _, 0 => 1
  | 0, _ + 1 => 0
  | n + 1, k + 1 => pascal n k + pascal n (k + 1)

/-- A single cell in state 1. -/
def loneCell (a b : Int) (x y : Int) : Int := if x = a ∧ y = b then 1 else 0

/-- A cell becomes 1 when the sum over the cell and its neighbours is 1; otherwise it stays as it is. -/
def growsAtOne (v : Int) (l : List Int) : Int := if v + l.sum = 1 then 1 else v

/-- The new value is the digit of `R`, in base two, that the sum over the cell and its neighbours selects. -/
def totalOf (R : Nat) (v : Int) (l : List Int) : Int := ((R / 2 ^ (v + l.sum).toNat % 2 : Nat) : Int)

/-- The Chebyshev distance from a cell to the cell at an offset. -/
def chebyshev (i j : Int) : Nat := max i.natAbs j.natAbs

/-- The label of the cell of row `x` and column `y` of the torus. -/
def torusLabel (rows cols : Nat) (p : Int × Int) : Nat :=
  (p.1 % (rows : Int)).toNat * cols + (p.2 % (cols : Int)).toNat

end Verif.Spec
