import Verif.Model.Turing
import Verif.Model.Utils
/-! # Model of the annotation helpers of `turing_machine.py` -/

namespace Verif
section
variable {Q S W L V : Type}

/-- `table[i][k] = v` for a list of lists: `IndexError` outside, negative indices count from the end
(`turing_machine.py:56, 128`). -/
def annotate (table : List (List (Option W))) (i : Nat) (k : Int) (v : W) : Except Err (List (List (Option W))) :=
  match table[i]? with
  | none => .error .indexError
  | some row => match pySet row k (some v) with
    | .error e => .error e
    | .ok row' => .ok (table.set i row')

/-- One round of the loop over the head history (`turing_machine.py:55-56`); `str` is Python's `str` of a state. -/
def annotateTape (str : Q → W) (table : List (List (Option W))) (p : (Q × Nat) × Nat) :
    Except Err (List (List (Option W))) :=
  annotate table p.2 p.1.2 (str p.1.1)

/-- `TapeCentricTuringMachine.head_activities` (`turing_machine.py:52-57`): `trajectory` are the activities of the states,
`history` is `_head_history`. -/
def tapeHeadActivities (str : Q → W) (n : Nat) (history : List (Q × Nat)) (trajectory : List (Option (Dict Nat S))) :
    Except Err (List (List (Option W))) :=
  let activities := activitiesOverTime (fun a b => decide (a ≤ b)) trajectory
  history.zipIdx.foldlM (annotateTape str) (List.replicate activities.length (List.replicate n none))

/-- One round of the loop over the activities (`turing_machine.py:127-128`). -/
def annotateHead (str : Q → W) (table : List (List (Option W))) (p : List (Q × Int) × Nat) :
    Except Err (List (List (Option W))) :=
  match p.1[0]? with
  | none => .error .indexError
  | some h => annotate table p.2 h.2 (str h.1)

/-- `HeadCentricTuringMachine.activities_for_plotting` (`turing_machine.py:124-130`): `tapes` is `_tape_history`. -/
def headActivitiesForPlotting (str : Q → W) (tapes : List (List S)) (trajectory : List (Option (Dict Nat (Q × Int)))) :
    Except Err (List (List S) × List (List (Option W))) :=
  let activities := activitiesOverTime (fun a b => decide (a ≤ b)) trajectory
  match tapes.getLast? with
  | none => .error .indexError
  | some last =>
    match activities.zipIdx.foldlM (annotateHead str) (List.replicate tapes.length (List.replicate last.length none)) with
    | .error e => .error e
    | .ok table => .ok (tapes, table)

end
end Verif
