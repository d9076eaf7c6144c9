import Mathlib.Analysis.Real.Sqrt
import Verif.Py.Index
/-! # Model of `hexplot.py`

What is drawn: the list of hexagons with their centres (over the real numbers) and the values that give their colours.  Colour maps and
axes are not modelled; for the colours see `Model/HexColours.lean`. -/

namespace Verif
section
variable {V : Type}

/-- `_oddr_offset_to_pixel` with size 1 (`hexplot.py:13-16`); `y & 1` is `y % 2`. -/
noncomputable def oddrPixel (x y : Nat) : ℝ × ℝ := (1 * √3 * (x + 0.5 * (y % 2 : Nat)), 1 * 3 / 2 * y)

/-- `_evenr_offset_to_pixel` with size 1 (`hexplot.py:19-22`). -/
noncomputable def evenrPixel (x y : Nat) : ℝ × ℝ := (1 * √3 * (x - 0.5 * (y % 2 : Nat)), 1 * 3 / 2 * y)

/-- `_get_triples` (`hexplot.py:34-38`). -/
def hexTriples (activities : List (List V)) : List (Nat × Nat × V) :=
  activities.zipIdx.flatMap (fun p => p.1.zipIdx.map (fun q => (q.2, p.2, q.1)))

/-- A vector as a matrix with the given shape, row by row (`reshape`, `hexplot.py:44, 66`). -/
def reshapeRow (rows cols : Nat) (row : List V) : List (List V) :=
  (List.range rows).map (fun a => (row.drop (a * cols)).take cols)

/-- `activities` after the optional `reshape(...)[slice]` (`hexplot.py:43-44`): `ValueError` when the numbers of cells
differ, `IndexError` for a bad slice. -/
def hexGrid (activities : List (List V)) (shape : Option (Nat × Nat)) (slice : Int) : Except Err (List (List V)) :=
  match shape with
  | none => .ok activities
  | some (rows, cols) =>
    if activities.all (fun row => decide (row.length = rows * cols)) then
      match pyGet activities slice with
      | .error e => .error e
      | .ok row => .ok (reshapeRow rows cols row)
    else .error .valueError

/-- The centre at which `plot_hex_grid` draws cell `x` of row `y` when the grid has `rows` rows (`hexplot.py:46, 51`). -/
noncomputable def hexCentre (rows x y : Nat) : ℝ × ℝ := if rows % 2 ≠ 0 then oddrPixel x y else evenrPixel x y

/-- The hexagons that `plot_hex_grid` draws (`hexplot.py:41-55`), from the activities over time. -/
noncomputable def hexPatches (activities : List (List V)) (shape : Option (Nat × Nat)) (slice : Int) :
    Except Err (List ((ℝ × ℝ) × V)) :=
  match hexGrid activities shape slice with
  | .error e => .error e
  | .ok grid => .ok ((hexTriples grid).map (fun t => (hexCentre grid.length t.1 t.2.1, t.2.2)))

end
end Verif
