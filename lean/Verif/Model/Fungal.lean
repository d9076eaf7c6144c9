import Verif.Model.Evolution
/-! # Model of `fungal_growth_model.py`

Resources, weights and random numbers are rational numbers.  The set of links (`fungal_growth_model.py:38-41`, from a
`networkx` grid) is a parameter: the list of its members in the order of the loop in `topology_rule`, each unpacked in
either order.  The `k`-th call of `np.random.random()` returns `rnd k`; the user state counts the calls. -/

namespace Verif

/-- `p = 1 / (self._d - curr_network.degree(a))`, then `if np.random.random() < p: new_network.add_edge(a, b)`
(`fungal_growth_model.py:73-75` and `78-80`). -/
def fungalTry (rnd : Nat → Rat) (cur : Net Nat Rat) (a b : Nat) (s : Net Nat Rat × Nat) : Except Err (Net Nat Rat × Nat) :=
  match cur.degree a with
  | .error e => .error e
  | .ok d =>
    if 4 - d = 0 then .error .zeroDivision
    else if rnd s.2 < 1 / ((4 - d : Int) : Rat) then
      match Net.addEdge a b [] s.1 with
      | (.error e, _) => .error e
      | (.ok (), n) => .ok (n, s.2 + 1)
    else .ok (s.1, s.2 + 1)

/-- The loop body for one link (`fungal_growth_model.py:64-87`); `s` is `new_network` and the number of random numbers
drawn. -/
def fungalLink (rnd : Nat → Rat) (cur : Net Nat Rat) (acts : Dict Nat Rat) (s : Net Nat Rat × Nat) (l : Nat × Nat) :
    Except Err (Net Nat Rat × Nat) :=
  match acts.get l.1 with
  | .error e => .error e
  | .ok ai => match acts.get l.2 with
    | .error e => .error e
    | .ok aj =>
      if cur.hasEdge l.1 l.2 = false ∧ cur.hasEdge l.2 l.1 = false then
        if ai > 0 then
          if aj > 0 then
            match (if rnd s.2 < 1 / 2 then Net.addEdge l.1 l.2 [] s.1 else Net.addEdge l.2 l.1 [] s.1) with
            | (.error e, _) => .error e
            | (.ok (), n) => .ok (n, s.2 + 1)
          else fungalTry rnd cur l.1 l.2 s
        else if aj > 0 then fungalTry rnd cur l.2 l.1 s
        else .ok s
      else .ok s

/-- The loop body that sets a weight (`fungal_growth_model.py:90`). -/
def fungalWeight (e : Nat × Nat × Attr Rat) : NetM Nat Rat Unit := fun n =>
  match n.outDegree e.1 with
  | .error e => (.error e, n)
  | .ok d => if d = 0 then (.error .zeroDivision, n) else Net.updateEdge e.1 e.2.1 none [("weight", 1 / (d : Rat))] n

/-- `topology_rule` (`fungal_growth_model.py:58-92`).  The generator of the second loop is evaluated at once: the loop does not
change which edges there are. -/
def fungalTopology (cl : Codec Nat) (ca : Codec Rat) (links : Nat → List (Nat × Nat)) (rnd : Nat → Rat) (ctx : TopCtx Nat Rat Rat)
    (u : Nat) : Except Err (TopOut Nat Rat × Nat) :=
  match ctx.net.copy cl ca with
  | .error e => .error e
  | .ok new => match (links ctx.t).foldlM (fungalLink rnd ctx.net ctx.activities) (new, u) with
    | .error e => .error e
    | .ok (new, u) => match NetM.forEach new.edges fungalWeight new with
      | (.error e, _) => .error e
      | (.ok (), new) => .ok (⟨ctx.net, .fresh new⟩, u)

/-- `neighbour_contribution += ctx.connection_states[neighbour][0]["weight"] * ctx.activities[neighbour]`
(`fungal_growth_model.py:98`). -/
def fungalAdd {I : Type} (ctx : NodeCtx Nat Rat Rat I) (s : Rat) (nb : Nat) : Except Err Rat :=
  match ctx.connections.get nb with
  | .error e => .error e
  | .ok es => match es[0]? with
    | none => .error .indexError
    | some a => match a.get "weight" with
      | .error e => .error e
      | .ok w => match ctx.activities.get nb with
        | .error e => .error e
        | .ok v => .ok (s + w * v)

/-- `activity_rule` (`fungal_growth_model.py:94-105`). -/
def fungalRule {I : Type} (RE : Rat) (layer : List Rat) (ctx : NodeCtx Nat Rat Rat I) : Except Err Rat :=
  match ctx.neighbours.foldlM (fungalAdd ctx) (if ctx.neighbours.length > 0 then 0 else ctx.current) with
  | .error e => .error e
  | .ok s => match pyGet layer (ctx.node : Int) with
    | .error e => .error e
    | .ok l => .ok (s + RE * (if ctx.current > 0 then 1 else 0) * l)

/-- The resource layer (`fungal_growth_model.py:44-53`): the given one if it is not empty (`if resource_layer:`) and of the
right size, otherwise 1 where the initial conditions are not 0. -/
def fungalLayer (agents : Nat) (init : List Rat) (given : Option (List Rat)) : Except Err (List Rat) :=
  match given with
  | some (l :: ls) => if (l :: ls).length = agents then .ok (l :: ls) else .error .assertion
  | _ => (init.zipIdx.filter (fun p => decide (p.1 ≠ 0))).foldlM (fun layer p => pySet layer (p.2 : Int) 1)
      (List.replicate agents 0)

end Verif
