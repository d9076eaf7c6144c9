import Verif.Spec.Fungal
/-! # Specification of lattices -/

namespace Verif.Spec

/-- Product of the sizes. -/
def gridCells : List Nat → Nat
  | [] => 1
  | d :: ds => d * gridCells ds

/-- Coordinate number `i` of node `x` of the lattice with dimensions `dim`; the first coordinate changes fastest. -/
def coord (dim : List Nat) (i x : Nat) : Nat := x / gridCells (dim.take i) % dim.getD i 1

/-- Neighbouring positions on a line of `d` positions, or on a ring. -/
def Near (periodic : Bool) (d a b : Nat) : Prop :=
  a + 1 = b ∨ b + 1 = a ∨ (periodic = true ∧ ((a = 0 ∧ b + 1 = d) ∨ (b = 0 ∧ a + 1 = d)))

/-- The nodes `x` and `y` have the same coordinates but one, in which they are near. -/
def GridLink (periodic : Bool) (dim : List Nat) (x y : Nat) : Prop :=
  x < gridCells dim ∧ y < gridCells dim ∧ ∃ i, i < dim.length ∧ (∀ j, j < dim.length → j ≠ i → coord dim j x = coord dim j y) ∧
    Near periodic (dim.getD i 1) (coord dim i x) (coord dim i y)

/-- `out` has the same edges as `es`, each once, in any order and either direction. -/
structure SameEdges (es out : List (Nat × Nat)) : Prop where
  mem : ∀ x y, ((x, y) ∈ out ∨ (y, x) ∈ out) ↔ ((x, y) ∈ es ∨ (y, x) ∈ es)
  once : out.Pairwise (fun p q => ¬ SameLink p q)

end Verif.Spec
