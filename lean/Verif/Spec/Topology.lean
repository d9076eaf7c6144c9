/-! # Specification of the regular topologies -/

namespace Verif.Spec

/-- Number of steps between two cells of a ring of `n` cells. -/
def circDist (n i j : Nat) : Nat := min (max i j - min i j) (n - (max i j - min i j))

/-- The cell `k` steps to the right of `w` (to the left for a negative `k`) on a ring of `n` cells. -/
def ringCell (n w : Nat) (k : Int) : Nat := (((w : Int) + k) % (n : Int)).toNat

/-- Cell `q` of a `rows × cols` torus is reached from cell `p` by an offset (row, column) that satisfies `P`. -/
def TorusReach (rows cols : Nat) (P : Int → Int → Prop) (p q : Nat × Nat) : Prop :=
  ∃ dx dy : Int, P dx dy ∧ ((p.1 : Int) + dx) % (rows : Int) = (q.1 : Int) ∧ ((p.2 : Int) + dy) % (cols : Int) = (q.2 : Int)

/-- Moore offsets of radius `r`. -/
def MooreOffset (r : Nat) (dx dy : Int) : Prop := dx.natAbs ≤ r ∧ dy.natAbs ≤ r

/-- Von Neumann offsets of radius `r`. -/
def VonNeumannOffset (r : Nat) (dx dy : Int) : Prop := dx.natAbs + dy.natAbs ≤ r

/-- The offsets that `adjacency.py:59-65` accepts for a cell of row `a` (counted from 0). -/
def HexOffset (a r : Nat) (dx dy : Int) : Prop :=
  dx.natAbs ≤ r ∧ dy.natAbs ≤ r ∧
    (dx.natAbs + dy.natAbs ≤ r ∨ (if a % 2 = 1 then dy < r else -dy < (r : Int)))

/-- The six neighbours of a hexagonal cell, and the cell itself, in "offset" coordinates: in even rows the neighbours
in the adjacent rows are above / below and to the right, in odd rows above / below and to the left. -/
def hexRing (a : Nat) : List (Int × Int) :=
  [(0, 0), (0, 1), (0, -1), (1, 0), (-1, 0)] ++
    (if a % 2 = 1 then [(1, -1), (-1, -1)] else [(1, 1), (-1, 1)])

/-- A matrix is symmetric. -/
def Symmetric (M : List (List Int)) : Prop :=
  ∀ i j : Nat, (M[i]?).bind (fun r => r[j]?) = (M[j]?).bind (fun r => r[i]?)

end Verif.Spec
