import Verif.Py.Index
/-! # Model of `LangtonsLoop.init_loops` (`/repo/netomaton/langtons_loop.py:240-379`)

The rule table is in `Verif/Model/Ctrbl.lean`. -/

namespace Verif

/-- The assignments of one round of the loop, in order: row offset, column offset, value (`langtons_loop.py:258-377`). -/
def loopAssignments : List (Int × Int × Nat) :=
  [(0, 0, 2), (0, 1, 2), (0, 2, 2), (0, 3, 2), (0, 4, 2), (0, 5, 2), (0, 6, 2), (0, 7, 2), (1, -1, 2), (1, 0, 1),
   (1, 1, 7), (1, 2, 0), (1, 3, 1), (1, 4, 4), (1, 5, 0), (1, 6, 1), (1, 7, 4), (1, 8, 2), (2, -1, 2), (2, 0, 0),
   (2, 1, 2), (2, 2, 2), (2, 3, 2), (2, 4, 2), (2, 5, 2), (2, 6, 2), (2, 7, 0), (2, 8, 2), (3, -1, 2), (3, 0, 7),
   (3, 1, 2), (3, 2, 0), (3, 3, 0), (3, 4, 0), (3, 5, 0), (3, 6, 2), (3, 7, 1), (3, 8, 2), (4, -1, 2), (4, 0, 1),
   (4, 1, 2), (4, 2, 0), (4, 3, 0), (4, 4, 0), (4, 5, 0), (4, 6, 2), (4, 7, 1), (4, 8, 2), (5, -1, 2), (5, 0, 0),
   (5, 1, 2), (5, 2, 0), (5, 3, 0), (5, 4, 0), (5, 5, 0), (5, 6, 2), (5, 7, 1), (5, 8, 2), (6, -1, 2), (6, 0, 7),
   (6, 1, 2), (6, 2, 0), (6, 3, 0), (6, 4, 0), (6, 5, 0), (6, 6, 2), (6, 7, 1), (6, 8, 2), (7, -1, 2), (7, 0, 1),
   (7, 1, 2), (7, 2, 2), (7, 3, 2), (7, 4, 2), (7, 5, 2), (7, 6, 2), (7, 7, 1), (7, 8, 2), (7, 9, 2), (7, 10, 2),
   (7, 11, 2), (7, 12, 2), (8, -1, 2), (8, 0, 0), (8, 1, 7), (8, 2, 1), (8, 3, 0), (8, 4, 7), (8, 5, 1), (8, 6, 0),
   (8, 7, 7), (8, 8, 1), (8, 9, 1), (8, 10, 1), (8, 11, 1), (8, 12, 1), (8, 13, 2), (9, 0, 2), (9, 1, 2), (9, 2, 2),
   (9, 3, 2), (9, 4, 2), (9, 5, 2), (9, 6, 2), (9, 7, 2), (9, 8, 2), (9, 9, 2), (9, 10, 2), (9, 11, 2), (9, 12, 2)]

/-- `initial_conditions[r][c] = v` (`langtons_loop.py:258-377`): numpy indexing, negative indices count from the end,
`IndexError` outside. -/
def assignCell (grid : List (List Nat)) (r c : Int) (v : Nat) : Except Err (List (List Nat)) :=
  match pyGet grid r with
  | .error e => .error e
  | .ok line => match pySet line c v with
    | .error e => .error e
    | .ok line' => pySet grid r line'

/-- One assignment relative to the position of the loop (`langtons_loop.py:258-377`). -/
def putCell (row col : Int) (grid : List (List Nat)) (w : Int × Int × Nat) : Except Err (List (List Nat)) :=
  assignCell grid (row + w.1) (col + w.2.1) w.2.2

/-- One round of `for i in range(n)` (`langtons_loop.py:254-377`). -/
def putLoop (rowL colL : List Int) (grid : List (List Nat)) (i : Nat) : Except Err (List (List Nat)) :=
  match rowL[i]? with
  | none => .error .indexError
  | some row => match colL[i]? with
    | none => .error .indexError
    | some col => loopAssignments.foldlM (putCell row col) grid

/-- `init_loops` (`langtons_loop.py:240-379`), for a number of loops that is not negative. -/
def initLoops (rows cols n : Nat) (rowL colL : List Int) : Except Err (List Nat) :=
  match (List.range n).foldlM (putLoop rowL colL) (List.replicate rows (List.replicate cols 0)) with
  | .error e => .error e
  | .ok grid => .ok grid.flatten

end Verif
