import Verif.Model.Wolfram
/-! # Model of `demos/wolfram_physics/wolfram_physics_demo.py` -/

namespace Verif

/-- `rules["in"]` (`demos/wolfram_physics/wolfram_physics_demo.py:9`). -/
def wm1167In : List (List Nat) := [[1, 1, 2], [3, 4, 1]]

/-- `rules["out"]` (`demos/wolfram_physics/wolfram_physics_demo.py:9`). -/
def wm1167Out : List (List Nat) := [[1, 1, 4], [5, 4, 3], [2, 5, 1]]

/-- `config` (`demos/wolfram_physics/wolfram_physics_demo.py:11`). -/
def wm1167Config : List (List Int) := [[1, 1, 1], [1, 1, 1]]

end Verif
