import Verif.Model.Evolution
/-! # Model of the rules of `demos/functional_network_automata` -/

namespace Verif
variable {L A V I σ : Type} [DecidableEq L]

/-- `activity_rule` (`demos/functional_network_automata/functional_network_automata_demo.py:11-14`). -/
def functionalRule (ctx : NodeCtx L A Int I) : Int := if ctx.neighbourActs.sum > 0 then 1 else ctx.current

/-- The body of the loop of `topology_rule` (`demos/functional_network_automata/functional_network_automata_demo.py:19-24`);
`new` is `new_network`. -/
def functionalStep (acts : Dict L Int) (new : Net L A) (e : L × L × Attr A) : Except Err (Net L A) :=
  match acts.get e.1 with
  | .error err => .error err
  | .ok a => match acts.get e.2.1 with
    | .error err => .error err
    | .ok b => if a = 1 ∧ b = 1 then
        match Net.removeEdge e.1 e.2.1 new with
        | (.error err, _) => .error err
        | (.ok (), new') => .ok new'
      else .ok new

/-- `topology_rule` (`demos/functional_network_automata/functional_network_automata_demo.py:16-26`). -/
def functionalTopology (cl : Codec L) (ca : Codec A) (ctx : TopCtx L A Int) (u : σ) : Except Err (TopOut L A × σ) :=
  match ctx.net.copy cl ca with
  | .error e => .error e
  | .ok new => match ctx.net.edges.foldlM (functionalStep ctx.activities) new with
    | .error e => .error e
    | .ok new' => .ok (⟨ctx.net, .fresh new'⟩, u)

end Verif
