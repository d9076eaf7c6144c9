import Verif.Model.Matrix
import Verif.Model.RuleClasses
/-! # Model of `hopfield_net.py` -/

namespace Verif

/-- Assignment to `matrix[i, j]` of a NumPy array, `i` and `j` not negative; indices out of range raise `IndexError`
(`hopfield_net.py:29, 31`). -/
def matModify (M : List (List Int)) (i j : Nat) (f : Int → Int) : Except Err (List (List Int)) :=
  match M[i]? with
  | none => .error .indexError
  | some row => match row[j]? with
    | none => .error .indexError
    | some v => .ok (M.set i (row.set j (f v)))

/-- The body of the innermost loop of `HopfieldNet.train` (`hopfield_net.py:28-31`). -/
def hebbCell (p : List Int) (i : Nat) (M : List (List Int)) (j : Nat) : Except Err (List (List Int)) :=
  match p[i]?, p[j]? with
  | some a, some b => matModify M i j (fun v => if i = j then 0 else v + a * b)
  | _, _ => .error .indexError

/-- One round of the outer loop of `HopfieldNet.train` (`hopfield_net.py:26-31`). -/
def hebbPattern (M : List (List Int)) (p : List Int) : Except Err (List (List Int)) :=
  (List.range p.length).foldlM (fun M i => (List.range p.length).foldlM (hebbCell p i) M) M

/-- `HopfieldNet.train` (`hopfield_net.py:24-31`): the adjacency matrix.  `P[0]` raises `IndexError` when there are no
patterns.  Patterns are lists of integers, the integers of NumPy are taken to be unbounded. -/
def hebbTrain (P : List (List Int)) : Except Err (List (List Int)) :=
  match P with
  | [] => .error .indexError
  | p :: _ => P.foldlM hebbPattern (List.replicate p.length (List.replicate p.length 0))

/-- The network made by `HopfieldNet.train` (`hopfield_net.py:32`). -/
def hopfieldNetwork (P : List (List Int)) : Except Err (Net Nat Int) := (hebbTrain P).map fromAdjacencyMatrix

section
variable {I τ : Type}

/-- `ctx.connection_states[neighbour_label][0]["weight"] * ctx.activities[neighbour_label]` (`hopfield_net.py:44`). -/
def hopfieldTerm (c : NodeCtx Nat Int Int I) (y : Nat) : Except Err Int :=
  match c.connections.get y with
  | .error e => .error e
  | .ok [] => .error .indexError
  | .ok (attrs :: _) => match attrs.get "weight" with
    | .error e => .error e
    | .ok w => match c.activities.get y with
      | .error e => .error e
      | .ok s => .ok (w * s)

/-- The loop of `HopfieldNet._rule` (`hopfield_net.py:42-44`). -/
def hopfieldSum (c : NodeCtx Nat Int Int I) : Except Err Int :=
  c.neighbours.foldlM (fun V y => (hopfieldTerm c y).map (fun v => V + v)) 0

/-- `HopfieldNet._rule` (`hopfield_net.py:34-45`). -/
def hopfieldRule (c : NodeCtx Nat Int Int I) : Except Err Int :=
  (hopfieldSum c).map (fun V => if V ≥ 0 then 1 else -1)

/-- `HopfieldNet(n).activity_rule` (`hopfield_net.py:14, 47-49`): `AsynchronousRule(rule, n=n,
randomize_each_cycle=True)`, to be used with the state `asyncInit shuffle none (some n)`. -/
def hopfieldActivityRule (shuffle : Nat → Nat → List Nat) :
    NodeCtx Nat Int Int I → Async Nat × τ → Except Err (RuleOut Nat Int Int × (Async Nat × τ)) :=
  asyncRule shuffle true (fun c u => (hopfieldRule c).map (fun v => (⟨v, [], []⟩, u)))

end
end Verif
