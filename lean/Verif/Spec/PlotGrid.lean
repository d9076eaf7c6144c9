import Verif.Py.Dict
/-! # Specification of pictures made of cells

`imshow` draws the value in row `i` and column `j` as the unit square around the point `(j, i)`. -/

namespace Verif.Spec

/-- The value of an image in row `i` and column `j`. -/
def pixel {V : Type} (image : List (List V)) (i j : Nat) : Option V :=
  match image[i]? with
  | some row => row[j]?
  | none => none

/-- An image with `rows` rows of `cols` values. -/
def IsImage {V : Type} (image : List (List V)) (rows cols : Nat) : Prop :=
  image.length = rows ∧ ∀ row ∈ image, row.length = cols

/-- `x` is the left or the right end of one of `n` unit intervals around `0, ..., n - 1`. -/
def CellBorder (n : Nat) (x : Rat) : Prop := ∃ j : Nat, j < n ∧ (x = j - 1 / 2 ∨ x = j + 1 / 2)

/-- A segment along the whole height or width of a picture with `rows` rows and `cols` columns, at the border of a cell. -/
def BorderLine (rows cols : Nat) (s : (Rat × Rat) × (Rat × Rat)) : Prop :=
  (CellBorder cols s.1.1 ∧ s = ((s.1.1, -1 / 2), (s.1.1, (rows : Rat) - 1 / 2))) ∨
  (CellBorder rows s.1.2 ∧ s = ((-1 / 2, s.1.2), ((cols : Rat) - 1 / 2, s.1.2)))

/-- The activities of nodes `0, ..., n - 1`, one value each. -/
def NodeValues {V : Type} (d : Dict Nat V) (n : Nat) : Prop := d.keys.Perm (List.range n)

end Verif.Spec
