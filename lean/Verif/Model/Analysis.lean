import Mathlib.Analysis.SpecialFunctions.Log.Base
import Verif.Py.Err
/-! # Model of `analysis.py`

Floats are real numbers.  A string is a list of characters; the functions work for any type of symbols. -/

namespace Verif

section
variable {α β : Type} [DecidableEq α] [DecidableEq β]

/-- `dict.fromkeys(list(string))` (`analysis.py:15`): the different symbols, by first occurrence. -/
def symbolsOf : List α → List α
  | [] => []
  | a :: s => a :: (symbolsOf s).filter (fun b => decide (b ≠ a))

/-- `shannon_entropy` (`analysis.py:7-18`); `math.log(p, 2.0)` is `Real.logb 2 p`, and adding 0 does nothing to a real. -/
noncomputable def shannonEntropy (s : List α) : ℝ :=
  -(((symbolsOf s).map (fun a => (s.count a : ℝ) / s.length)).map (fun p => p * Real.logb 2 p)).sum

/-- Broadcasting of two arrays of one dimension (`numpy`, used at `analysis.py:64`): equal lengths, or one of them is 1. -/
def broadcast (X : List α) (Y : List β) : Except Err (List (α × β)) :=
  if X.length = Y.length then .ok (X.zip Y)
  else match X, Y with
    | [x], Y => .ok (Y.map (fun y => (x, y)))
    | X, [y] => .ok (X.map (fun x => (x, y)))
    | _, _ => .error .valueError

/-- `np.mean(np.logical_and(X == x, Y == y))` (`analysis.py:64`). -/
noncomputable def jointProb (XY : List (α × β)) (x : α) (y : β) : ℝ :=
  ((XY.countP (fun p => decide (p.1 = x) && decide (p.2 = y)) : ℕ) : ℝ) / XY.length

/-- `joint_shannon_entropy` (`analysis.py:49-65`), where `xs` and `ys` are the orders in which the sets are visited.  The
arrays are only combined if both sets have a member. -/
noncomputable def jointEntropy (xs : List α) (ys : List β) (X : List α) (Y : List β) : Except Err ℝ :=
  if xs = [] ∨ ys = [] then .ok 0
  else match broadcast X Y with
    | .error e => .error e
    | .ok XY => .ok (((xs.flatMap (fun x => ys.map (jointProb XY x))).filter (fun p => decide (p ≠ 0))).map
        (fun p => -p * Real.logb 2 p)).sum

/-- `mutual_information` (`analysis.py:68-78`). -/
noncomputable def mutualInformation (xs : List α) (ys : List β) (X : List α) (Y : List β) : Except Err ℝ :=
  match jointEntropy xs ys X Y with
  | .error e => .error e
  | .ok h => .ok (shannonEntropy X + shannonEntropy Y - h)

end

section
variable {α : Type}

/-- `''.join([str(x) for x in [y[i] for y in activities]])` (`analysis.py:43`, `112`); `str` is a parameter. -/
def nodeString (str : α → List Char) (activities : List (List α)) (i : Nat) : Except Err (List Char) :=
  match activities.mapM (fun y => y[i]?) with
  | none => .error .indexError
  | some xs => .ok (xs.flatMap str)

/-- `np.mean` of a list (`analysis.py:46, 115`).  The mean of the empty list is `nan`, which is not a real number: it is reported as an error. -/
noncomputable def npMean (l : List ℝ) : Except Err ℝ :=
  if l = [] then .error (.exception "nan") else .ok (l.sum / l.length)

/-- `average_node_entropy` (`analysis.py:21-46`) of a list of lists; the conversion of a trajectory (line 37) is
`activitiesOverTime`. -/
noncomputable def averageNodeEntropy (str : α → List Char) (activities : List (List α)) : Except Err ℝ :=
  match activities with
  | [] => .error (.exception "there are no activities")
  | row :: _ => do
    let entropies ← (List.range row.length).mapM (fun i => do
      let s ← nodeString str activities i
      pure (shannonEntropy s))
    npMean entropies

/-- `average_mutual_information` (`analysis.py:81-115`) of a list of lists; `order s` is the order in which `set(s)` is
visited.  `s[:-d]` and `s[d:]` are `take (len - d)` and `drop d`, as `d > 0`. -/
noncomputable def averageMutualInformation (str : α → List Char) (order : List Char → List Char)
    (activities : List (List α)) (d : Int) : Except Err ℝ :=
  match activities with
  | [] => .error (.exception "there are no activities")
  | row :: _ =>
    if ¬ (0 < d ∧ d < row.length) then
      .error (.exception "the temporal distance must be greater than 0 and less than the number of time steps")
    else do
      let informations ← (List.range row.length).mapM (fun i => do
        let s ← nodeString str activities i
        let X := s.take (s.length - d.toNat)
        let Y := s.drop d.toNat
        mutualInformation (order X) (order Y) X Y)
      npMean informations

end
end Verif
