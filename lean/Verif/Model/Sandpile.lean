import Verif.Model.Evolution
import Verif.Model.Topology
/-! # Model of `sandpile.py` -/

namespace Verif
section
variable {A I : Type}

/-- `Sandpile._get_boundary_indices` (`sandpile.py:13-15`): the labels of the first and last row and of the first and
last column of the `rows × cols` matrix of labels.  `m[0]` of a matrix without rows raises; `Sandpile.__init__` has
already raised in `cellular_automaton2d` for such shapes (fewer than nine cells). -/
def boundaryIndices (rows cols : Nat) : List Nat :=
  (List.range cols).map (fun j => 0 * cols + j) ++ (List.range cols).map (fun j => (rows - 1) * cols + j) ++
    (List.range rows).map (fun i => i * cols + 0) ++ (List.range rows).map (fun i => i * cols + (cols - 1))

/-- The loop of `sandpile.py:26-28`. -/
def toppleIn (acts : List Int) (new : Int) : Int :=
  acts.foldl (fun new v => if v ≥ 4 then new + 1 else new) new

/-- `Sandpile.activity_rule` (`sandpile.py:17-33`) with `K = 4` (`sandpile.py:8`).  `index` raises a `ValueError` when
the node is not among its own neighbours. -/
def sandpileRule (rows cols : Nat) (closed : Bool) (c : NodeCtx Nat A Int I) : Except Err Int :=
  if closed && decide (c.node ∈ boundaryIndices rows cols) then .ok 0
  else match c.neighbours.idxOf? c.node with
    | none => .error .valueError
    | some i =>
      if i < c.neighbourActs.length then
        let new := toppleIn (c.neighbourActs.eraseIdx i) c.current
        .ok (if c.current ≥ 4 then new - 4 else new)
      else .error .indexError

/-- `Sandpile.__init__` (`sandpile.py:7-11`): the network. -/
def sandpileNetwork (rows cols : Nat) : Except Err (Net Nat Int) := cellularAutomaton2d rows cols 1 "von Neumann" true

end
end Verif
