import Verif.Model.TuringPlot
/-! # Model of the demo of the universal Turing machine -/

namespace Verif

/-- The rule table of `demos/turing_machine/turing_machine_demo1c.py:15-30` (the same in
`demos/turing_machine/turing_machine_demo2c.py:15-30`): `up, down` are `1, 2` and `a, b, c, d, e` are `0, ..., 4`
(`demos/turing_machine/turing_machine_demo1c.py:12-13`). -/
def universalTable : TMTable Nat Int :=
  [(1, [(0, (1, 1, 0)), (1, (1, 0, 2)), (2, (1, 0, 2)), (3, (2, 4, 2)), (4, (2, 3, 0))]),
   (2, [(0, (1, 3, 0)), (1, (1, 0, 2)), (2, (1, 4, 2)), (3, (2, 4, 2)), (4, (2, 2, 0))])]

/-- The index of the head in a row of annotations (`demos/turing_machine/turing_machine_demo1c.py:62-65`). -/
def headIdx {W : Type} [DecidableEq W] (up down : W) (row : List (Option W)) : Except Err Nat :=
  match row.findIdx? (fun x => decide (x = some up)) with
  | some i => .ok i
  | none => match row.findIdx? (fun x => decide (x = some down)) with
    | some i => .ok i
    | none => .error .valueError

/-- The loop keeping the rows in which the head is further to the right than ever before
(`demos/turing_machine/turing_machine_demo1c.py:58-69`, `demos/turing_machine/turing_machine_demo2c.py:62-73`): `rows` are the
remaining rows of annotations, `i` the index of the first of them, `far` is `furthest_head_idx`. -/
def compress {S W : Type} [DecidableEq W] (up down : W) (tapes : List (List S)) : Nat → Nat → List (List (Option W)) →
    Except Err (List (List S) × List (List (Option W)))
  | _, _, [] => .ok ([], [])
  | i, far, row :: rows =>
    match headIdx up down row with
    | .error e => .error e
    | .ok k =>
      if far < k then
        match tapes[i]? with
        | none => .error .indexError
        | some tape => match compress up down tapes (i + 1) k rows with
          | .error e => .error e
          | .ok (a, b) => .ok (tape :: a, row :: b)
      else compress up down tapes (i + 1) far rows

end Verif
