import Verif.Model.Evolution
import Verif.Model.Topology
/-! # Model of the restricted Boltzmann machine demo

Numbers are exact rationals; the code uses floats.  The labels `"%sv" % n` and `"%sh" % n` are `.v n` and `.h n`. -/

namespace Verif

/-- The labels of the demo (`demos/restricted_boltzmann_machine/rbm_demo.py:12, 14, 63-64`). -/
inductive RbmLabel where
  | v (n : Nat)
  | h (n : Nat)
deriving DecidableEq

/-- The body of the inner loop of `read_weights` (`rbm_demo.py:14-17`). -/
def rbmReadWeight (node2 : RbmLabel) (weights : EdgeAttrs RbmLabel Rat) (p : Rat × Nat) : EdgeAttrs RbmLabel Rat :=
  let node1 := RbmLabel.v p.2
  let weights := if node1 ∈ weights.keys then weights else weights.set node1 []
  weights.set node1 (((weights.get? node1).getD []).set node2 [("weight", p.1)])

/-- `read_weights` (`rbm_demo.py:7-18`) on the parsed rows of the file. -/
def rbmReadWeights (rows : List (List Rat)) : EdgeAttrs RbmLabel Rat :=
  rows.zipIdx.foldl (fun weights p => p.1.zipIdx.foldl (rbmReadWeight (.h p.2)) weights) []

/-- `read_biases` (`rbm_demo.py:21-27`) on the parsed rows of the file; `mk` adds the suffix. -/
def rbmReadBiases (mk : Nat → RbmLabel) (rows : List (List Rat)) : Except Err (Dict RbmLabel Rat) :=
  rows.zipIdx.foldlM (fun biases p => match p.1[0]? with
    | none => .error .indexError
    | some b => .ok (Dict.set biases (mk p.2) b)) []

/-- One assignment of `initialize_rbm` (`rbm_demo.py:37, 39`). -/
def rbmSet (value : RbmLabel → Rat) (biases : Dict RbmLabel Rat) (conds : Dict RbmLabel (Rat × Rat)) (node : RbmLabel) :
    Except Err (Dict RbmLabel (Rat × Rat)) :=
  match biases.get node with
  | .error e => .error e
  | .ok b => .ok (Dict.set conds node (value node, b))

/-- `initialize_rbm` (`rbm_demo.py:34-40`); `choice` are the results of `np.random.choice([0, 1])`. -/
def rbmInit (choice : RbmLabel → Bool) (vs hs : List RbmLabel) (vb hb : Dict RbmLabel Rat) :
    Except Err (Dict RbmLabel (Rat × Rat)) :=
  match vs.foldlM (rbmSet (fun x => if choice x then 1 else 0) vb) [] with
  | .error e => .error e
  | .ok d => hs.foldlM (rbmSet (fun _ => 0) hb) d

/-- `V += ctx.connection_states[neighbour_label][0]["weight"] * ctx.activities[neighbour_label][0]` (`rbm_demo.py:84`). -/
def rbmAdd {I : Type} (ctx : NodeCtx RbmLabel Rat (Rat × Rat) I) (V : Rat) (nb : RbmLabel) : Except Err Rat :=
  match ctx.connections.get nb with
  | .error e => .error e
  | .ok es => match es[0]? with
    | none => .error .indexError
    | some a => match a.get "weight" with
      | .error e => .error e
      | .ok w => match ctx.activities.get nb with
        | .error e => .error e
        | .ok q => .ok (V + w * q.1)

/-- `activity_rule` (`rbm_demo.py:71-87`).  `draw t node x` is the result of `np.random.binomial(1, sigmoid(x))` in the call for `node` at
timestep `t`. -/
def rbmRule {I : Type} (vs hs : List RbmLabel) (draw : Nat → RbmLabel → Rat → Bool) (ctx : NodeCtx RbmLabel Rat (Rat × Rat) I) :
    Except Err (Rat × Rat) :=
  let (activity, bias) := ctx.current
  if ctx.t % 2 = 0 ∧ ctx.node ∈ hs then .ok (activity, bias)
  else if ctx.t % 2 ≠ 0 ∧ ctx.node ∈ vs then .ok (activity, bias)
  else match ctx.neighbours.foldlM (rbmAdd ctx) 0 with
    | .error e => .error e
    | .ok V => .ok (if draw ctx.t ctx.node (bias + V) then 1 else 0, bias)

/-- The assignments of `get_visible_activities` for one entry of a state (`rbm_demo.py:47-49`). -/
def rbmPut (activities : List Rat) (p : RbmLabel × (Rat × Rat)) : Except Err (List Rat) :=
  match p.1 with
  | .v n => if n < activities.length then .ok (activities.set n p.2.1) else .error .indexError
  | .h _ => .ok activities

/-- `get_visible_activities` (`rbm_demo.py:43-51`) on the activities of the states. -/
def rbmVisible (nVisible : Nat) (states : List (Dict RbmLabel (Rat × Rat))) : Except Err (List (List Rat)) :=
  states.mapM (fun d => d.foldlM rbmPut (List.replicate nVisible 0))

end Verif
