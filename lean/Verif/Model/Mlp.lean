import Verif.Model.Evolution
/-! # Model of the multilayer perceptron demo

Numbers are exact rationals; the code uses floats. -/

namespace Verif

/-- Weights by origin and target (`demos/mlp/mlp_demo.py:8, 17`). -/
abbrev Weights := Dict Nat (Dict Nat Rat)

/-- The body of the inner loop of `read_weights` (`mlp_demo.py:14-17`). -/
def readWeight (node2 : Nat) (weights : Weights) (p : Rat × Nat) : Weights :=
  let weights := if p.2 ∈ weights.keys then weights else weights.set p.2 []
  weights.set p.2 (((weights.get? p.2).getD []).set node2 p.1)

/-- `read_weights` (`mlp_demo.py:7-18`) on the parsed rows of the file. -/
def readWeights (rows : List (List Rat)) : Weights :=
  rows.zipIdx.foldl (fun weights p => p.1.zipIdx.foldl (readWeight p.2) weights) []

/-- `set_weights` (`mlp_demo.py:33-36`). -/
def setWeights (weights : Weights) : NetM Nat Rat Unit :=
  NetM.forEach weights (fun p => NetM.forEach p.2 (fun q => Net.updateEdge p.1 q.1 none [("weight", q.2)]))

/-- `relu` (`mlp_demo.py:39-40`). -/
def relu (x : Rat) : Rat := if x > 0 then x else 0

/-- The network of the demo (`mlp_demo.py:86-90`). -/
def mlpNetwork (n : Nat) (weights : Weights) : Except Err Unit × Net Nat Rat :=
  setWeights weights (Net.run Net.empty
    ((List.range n).flatMap (fun i => (List.range n).map (fun j => Net.Op.addEdge i j []))))

/-- `V += ctx.connection_states[neighbour_label][0]["weight"] * ctx.activities[neighbour_label]` (`mlp_demo.py:96`). -/
def mlpAdd {I : Type} (ctx : NodeCtx Nat Rat Rat I) (V : Rat) (nb : Nat) : Except Err Rat :=
  match ctx.connections.get nb with
  | .error e => .error e
  | .ok es => match es[0]? with
    | none => .error .indexError
    | some a => match a.get "weight" with
      | .error e => .error e
      | .ok w => match ctx.activities.get nb with
        | .error e => .error e
        | .ok v => .ok (V + w * v)

/-- `activity_rule` (`mlp_demo.py:93-98`); `activation t` is `timestep_to_activation[t]` (`mlp_demo.py:80-84`). -/
def mlpRule {I : Type} (activation : Nat → Option (Rat → Rat)) (ctx : NodeCtx Nat Rat Rat I) : Except Err Rat :=
  match ctx.neighbours.foldlM (mlpAdd ctx) 0 with
  | .error e => .error e
  | .ok V => match activation ctx.t with
    | none => .error .keyError
    | some f => .ok (f V)

/-- `topology_rule` (`mlp_demo.py:101-105`); `ws t` is `timestep_to_weights[t]` (`mlp_demo.py:73-77`).  The network of the
context is changed and returned. -/
def mlpTopology {σ : Type} (ws : Nat → Option Weights) (ctx : TopCtx Nat Rat Rat) (u : σ) :
    Except Err (TopOut Nat Rat × σ) :=
  match ws ctx.t with
  | none => .error .keyError
  | some weights => match setWeights weights ctx.net with
    | (.error e, _) => .error e
    | (.ok (), n) => .ok (⟨n, .same⟩, u)

end Verif
