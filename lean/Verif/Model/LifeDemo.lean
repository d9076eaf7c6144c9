import Verif.Model.Utils
/-! # Model of the demo of the Game of Life -/

namespace Verif

/-- The cells that are switched on (`demos/game_of_life/game_of_life_demo.py:11-19, 22-26, 29-31`), in this order. -/
def lifeDemoCells : List Nat :=
  [1125, 1128, 1184, 1244, 1248, 1304, 1305, 1306, 1307, 1710, 1771, 1829, 1830, 1831, 2415, 2416, 2417]

/-- The initial conditions (`demos/game_of_life/game_of_life_demo.py:8-31`). -/
def lifeDemoInit : Except Err (List Int) :=
  match initSimple2d (0 : Int) 60 60 1 with
  | .error e => .error e
  | .ok l => .ok (lifeDemoCells.foldl (fun l i => l.set i 1) l)

end Verif
