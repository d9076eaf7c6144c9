import Verif.Model.RuleClasses
import Verif.Model.Topology
/-! # Model of the demos of dynamical systems: spring, Lorenz attractor, logistic map, continuous automata, reaction and diffusion

The numbers are exact rationals. -/

namespace Verif

/-- `NodeContext.edge_data` (`evolution.py:64-65`). -/
def edgeData {L A V I : Type} [DecidableEq L] (ctx : NodeCtx L A V I) (neighbour : L) (attr : String) (index : Int) : Except Err A :=
  match ctx.connections.get neighbour with
  | .error e => .error e
  | .ok es => match pyGet es index with
    | .error e => .error e
    | .ok d => d.get attr

/-- `activity_rule` of the spring (`demos/continuous_time_models/single_spring_netomaton_demo.py:30-34`). -/
def springRule {L A I : Type} (dt : Rat) (ctx : NodeCtx L A (Rat × Rat) I) : Except Err (Rat × Rat) :=
  let xn := ctx.current.1
  let vn := ctx.current.2
  let xNew := xn + dt * vn
  let vNew := vn + dt * (-6 * xNew)
  .ok (xNew, vNew)

/-- `activity_rule` of the Lorenz attractor on one node (`demos/lorenz_attractor/lorenz_attractor_demo.py:18-25`). -/
def lorenzRule {L A I : Type} (a b r dt : Rat) (ctx : NodeCtx L A (Rat × Rat × Rat) I) : Except Err (Rat × Rat × Rat) :=
  let x := ctx.current.1
  let y := ctx.current.2.1
  let z := ctx.current.2.2
  .ok (x + a * (y - x) * dt, y + (r * x - y - x * z) * dt, z + (x * y - b * z) * dt)

/-- The network of the second Lorenz demo (`demos/lorenz_attractor/lorenz_attractor_demo2.py:13-21`). -/
def lorenzNetwork (a b r : Rat) : Net String Rat :=
  Net.run Net.empty [.addEdge "x" "x" [("weight", a)], .addEdge "y" "x" [("weight", a)], .addEdge "x" "y" [("weight", r)],
    .addEdge "z" "y" [("weight", 1)], .addEdge "y" "y" [("weight", 1)], .addEdge "x" "z" [("weight", 1)],
    .addEdge "y" "z" [("weight", 1)], .addEdge "z" "z" [("weight", b)]]

/-- `activity_rule` of the second Lorenz demo (`demos/lorenz_attractor/lorenz_attractor_demo2.py:26-44`); `connection_states[i][0]["weight"]` is
what `edge_data` looks up. -/
def lorenzNetworkRule {I : Type} (dt : Rat) (ctx : NodeCtx String Rat Rat I) : Except Err Rat :=
  if ctx.node = "x" then do
    let x := ctx.current
    let wx ← edgeData ctx "x" "weight" 0
    let y ← ctx.activities.get "y"
    let wy ← edgeData ctx "y" "weight" 0
    .ok (x + (wy * y - wx * x) * dt)
  else if ctx.node = "y" then do
    let y := ctx.current
    let wy ← edgeData ctx "y" "weight" 0
    let x ← ctx.activities.get "x"
    let wx ← edgeData ctx "x" "weight" 0
    let z ← ctx.activities.get "z"
    let wz ← edgeData ctx "z" "weight" 0
    .ok (y + (wx * x - wy * y - x * wz * z) * dt)
  else do
    let z := ctx.current
    let wz ← edgeData ctx "z" "weight" 0
    let x ← ctx.activities.get "x"
    let wx ← edgeData ctx "x" "weight" 0
    let y ← ctx.activities.get "y"
    let wy ← edgeData ctx "y" "weight" 0
    .ok (z + (wx * x * wy * y - wz * z) * dt)

/-- The network of the logistic map demo (`demos/logistic_map/logistic_map_demo.py:13-14`): one node with a self-loop per growth rate. -/
def logisticNetwork (rates : List Rat) : Net Nat Rat :=
  Net.run (disconnectedN Rat rates.length) (rates.zipIdx.map (fun p => .addEdge p.2 p.2 [("growth_rate", p.1)]))

/-- `activity_rule` of the logistic map (`demos/logistic_map/logistic_map_demo.py:19-20`). -/
def logisticRule {L I : Type} [DecidableEq L] (ctx : NodeCtx L Rat Rat I) : Except Err Rat :=
  match edgeData ctx ctx.node "growth_rate" 0 with
  | .error e => .error e
  | .ok g => .ok (g * ctx.current * (1 - ctx.current))

/-- The fractional part of `math.modf` (`demos/continuous_automata/continuous_automata_demo.py:15`): it has the sign of the argument. -/
def modfFrac (q : Rat) : Rat := if 0 ≤ q then q - q.floor else q - q.ceil

/-- `activity_rule` of the continuous automaton (`demos/continuous_automata/continuous_automata_demo.py:12-16`). -/
def continuousRule {L A I : Type} (ctx : NodeCtx L A Rat I) : Except Err Rat :=
  if ctx.neighbourActs.length = 0 then .error .zeroDivision
  else .ok (modfFrac (ctx.neighbourActs.sum / (ctx.neighbourActs.length : Rat) * (3 / 2)))

/-- `react_diffuse` (`demos/reaction_diffusion/reaction_diffusion_demo.py:38-56`).  Simplified: the neighbourhood activities and the neighbour
labels are paired by `zip`; `evolve` gives lists of equal length. -/
def reactDiffuse {L A I : Type} [DecidableEq L] (ru rv f k : Rat) (ctx : NodeCtx L A (Rat × Rat) I) : Except Err (Rat × Rat) :=
  let u := ctx.current.1
  let v := ctx.current.2
  let others := (ctx.neighbourActs.zip ctx.neighbours).filter (fun p => decide (p.2 ≠ ctx.node))
  let du := (others.map (fun p => p.1.1)).sum - 4 * u
  let dv := (others.map (fun p => p.1.2)).sum - 4 * v
  let iu := -u * v ^ 2 + f * (1 - u)
  let iv := u * v ^ 2 - k * v
  .ok (u + ru * du + iu, v + rv * dv + iv)

end Verif
