import Verif.Model.TSP
import Verif.Model.Wolfram
/-! # Model of the functions that read the results of the TSP network and of Wolfram models -/

namespace Verif

/-- `get_permutation_matrix` (`hopfield_tank_tsp_net.py:56-60`) for the rows of `get_activities_over_time_as_list`: the last row,
reshaped, and `_V` of every entry.  `IndexError` without rows, `ValueError` if the reshape is not possible. -/
def permutationMatrix {R E : Type} (V : R → E) (n : Nat) (activities : List (List R)) : Except Err (List (List E)) :=
  match activities.getLast? with
  | none => .error .indexError
  | some row => if row.length = n * n then .ok ((List.range n).map (fun a => ((row.drop (a * n)).take n).map V))
    else .error .valueError

/-- The attributes that are read of `None` (`wolfram_physics_model.py:42`) do not exist; Python raises `AttributeError`. -/
def noNetwork : Err := .exception "AttributeError"

/-- The body of the loop of `to_configurations` (`wolfram_physics_model.py:156`). -/
def stateConfig (net : Option (Net Int WVal)) : Except Err (List (List Int)) :=
  match net with
  | none => .error noNetwork
  | some n => wConfig n

/-- `to_configurations` (`wolfram_physics_model.py:153-157`) of a result of `evolve`. -/
def toConfigurations {V I κ : Type} (cfg : Config Int WVal V I Int κ) (res : Evolved Int WVal V Int) : Except Err (List (List (List Int))) :=
  (List.range res.states.length).mapM (fun t => stateConfig (res.net cfg t))

end Verif
