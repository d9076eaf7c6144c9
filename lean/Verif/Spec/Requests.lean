import Verif.Spec.Evolution
import Verif.Spec.Multigraph
/-! # Specification: nodes added and removed by activity rules -/

namespace Verif
variable {L A V I σ κ : Type} [DecidableEq L]

/-- The function `R` as a rule. -/
def reqRule (R : NodeCtx L A V I → Except Err (RuleOut L A V)) (ctx : NodeCtx L A V I) (u : σ) :
    Except Err (RuleOut L A V × σ) :=
  match R ctx with
  | .error e => .error e
  | .ok o => .ok (o, u)

/-- The rule is the stateless function `R`, which may raise and may make requests. -/
def Config.ReqRule (cfg : Config L A V I σ κ) (R : NodeCtx L A V I → Except Err (RuleOut L A V)) : Prop :=
  cfg.rule = some (reqRule R)

/-- `outs` lists what `R` returns for the nodes of `N`, in their order. -/
def Outcomes (cfg : Config L A V I σ κ) (R : NodeCtx L A V I → Except Err (RuleOut L A V)) (t : Nat)
    (past : Option (List (Option (Dict L V)))) (inp : Inp I) (N : Net L A) (S : Dict L V)
    (outs : List (L × RuleOut L A V)) : Prop :=
  outs.map Prod.fst = N.labels ∧ ∀ p ∈ outs, ∃ ctx, SpecCtx cfg.labelIdx N S t past inp p.1 ctx ∧ R ctx = .ok p.2

/-- All requested additions, in the order of the nodes. -/
def allAdded (outs : List (L × RuleOut L A V)) : List (AddReq L A V) := outs.flatMap (fun p => p.2.added)

/-- All requested removals, in the order of the nodes. -/
def allRemoved (outs : List (L × RuleOut L A V)) : List L := outs.flatMap (fun p => p.2.removed)

/-- Attributes of the parallel edges from `i` to `j`, oldest first. -/
def parallel (n : Net L A) (i j : L) : List (Attr A) :=
  match n.edge i j with
  | .ok l => l
  | .error _ => []

/-- Attributes of the node `x`. -/
def attrsOf (n : Net L A) (x : L) : Option (Attr A) := (n.nodes.get? x).map (fun d => d.attrs)

/-- `B'` is `B` without the nodes `removed`, and then with the requested nodes and their outgoing edges. -/
structure Requested (act : V → A) (added : List (AddReq L A V)) (removed : List L) (B B' : Net L A) : Prop where
  once : removed.Nodup
  present : ∀ x ∈ removed, x ∈ B.labels
  labels : B'.labels = MG.dedup (B.labels.filter (fun x => decide (x ∉ removed)) ++
    added.flatMap (fun r => r.label :: r.links.map Prod.fst))
  edges : ∀ i j, parallel B' i j = (if i ∈ removed ∨ j ∈ removed then [] else parallel B i j) ++
    added.flatMap (fun r => if r.label = i then (r.links.filter (fun p => decide (p.1 = j))).map Prod.snd else [])
  attrs : ∀ x ∈ B'.labels, attrsOf B' x = some ((added.filter (fun r => decide (r.label = x))).foldl
    (fun (a : Attr A) r => Dict.update a [("activity", act r.state)])
    (if x ∈ removed then [] else (attrsOf B x).getD []))
  rotation : B'.rotation = none

/-- The activity of `y` after the timestep: the last request to add `y` counts; otherwise a node that did not remove
itself has the value computed by the rule. -/
def specActivity (outs : List (L × RuleOut L A V)) (y : L) : Option V :=
  match (allAdded outs).reverse.find? (fun r => decide (r.label = y)) with
  | some r => some r.state
  | none => (outs.find? (fun p => decide (p.1 = y))).bind (fun p => if y ∈ p.2.removed then none else some p.2.value)

end Verif
