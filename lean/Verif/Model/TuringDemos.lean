import Verif.Model.Turing
/-! # Model of the rule tables of the demos of Turing machines -/

namespace Verif

/-- The rule table of `demos/turing_machine/turing_machine_demo1b.py:14-78` (the same in
`demos/turing_machine/turing_machine_demo2b.py:14-78`): states `q0, ..., q6` are `0, ..., 6`; the symbols
`" ", "a", "b", "c", "x", "y", "z"` are `0, ..., 6` (`demos/turing_machine/turing_machine_demo1b.py:11-12`). -/
def abcTable : TMTable Nat Int :=
  [(0, [(1, (1, 4, 2)), (0, (6, 0, 1)), (5, (4, 5, 0)), (2, (0, 2, 1)), (3, (0, 3, 1)), (4, (0, 4, 1)), (6, (0, 6, 1))]),
   (1, [(2, (2, 5, 2)), (5, (1, 5, 2)), (1, (1, 1, 2)), (3, (1, 3, 1)), (4, (1, 4, 1)), (6, (1, 6, 1)), (0, (1, 0, 1))]),
   (2, [(3, (3, 6, 0)), (6, (2, 6, 2)), (2, (2, 2, 2)), (1, (2, 1, 1)), (4, (2, 4, 1)), (5, (2, 5, 1)), (0, (2, 0, 1))]),
   (3, [(4, (0, 4, 2)), (1, (3, 1, 0)), (2, (3, 2, 0)), (6, (3, 6, 0)), (5, (3, 5, 0)), (3, (3, 3, 1)), (0, (3, 0, 1))]),
   (4, [(0, (5, 0, 2)), (4, (4, 4, 0)), (1, (4, 1, 1)), (2, (4, 2, 1)), (3, (4, 3, 1)), (5, (4, 5, 1)), (6, (4, 6, 1))]),
   (5, [(0, (6, 0, 1)), (4, (5, 4, 2)), (5, (5, 5, 2)), (6, (5, 6, 2)), (1, (5, 1, 1)), (2, (5, 2, 1)), (3, (5, 3, 1))]),
   (6, [(0, (6, 0, 1)), (1, (6, 1, 1)), (2, (6, 2, 1)), (3, (6, 3, 1)), (4, (6, 4, 1)), (5, (6, 5, 1)), (6, (6, 6, 1))])]

end Verif
