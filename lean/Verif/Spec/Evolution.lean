import Verif.Model.Evolution
/-! # Specification of the contexts that `evolve` hands to rules

Stated with dictionary lookups on the observable network and activities only. -/

namespace Verif
section
variable {L A V I σ κ : Type} [DecidableEq L]

/-- Neighbours of `x` in the network `n`: its rotation system entry if there is a rotation system, otherwise the
sources of its incoming edges. -/
def specNbrs (n : Net L A) (x : L) : Option (List L) :=
  match n.rotation with
  | some r => r.get? x
  | none => (n.nodes.get? x).map (fun d => d.incoming.keys)

/-- The input item of node `x` for the timestep's input `inp`. -/
def SpecInput (labelIdx : L → Option Int) (inp : Inp I) (x : L) (i : Option I) : Prop :=
  match inp with
  | .timestep => i = none
  | .scalar v => i = some v
  | .seq xs => ∃ k, labelIdx x = some k ∧ pyGet xs k = .ok i

/-- `ctx` is the context of node `x` at timestep `t`, when the network in force is `n`, the activities of the previous
timestep are `S`, the past activities are `past` and the input of the timestep is `inp`. -/
structure SpecCtx (labelIdx : L → Option Int) (n : Net L A) (S : Dict L V) (t : Nat)
    (past : Option (List (Option (Dict L V)))) (inp : Inp I) (x : L) (ctx : NodeCtx L A V I) : Prop where
  node : ctx.node = x
  t : ctx.t = t
  activities : ctx.activities = S
  neighbours : specNbrs n x = some ctx.neighbours
  neighbourActs : ctx.neighbourActs.map some = ctx.neighbours.map S.get?
  connections : (n.nodes.get? x).map (fun d => d.incoming) = some ctx.connections
  current : S.get? x = some ctx.current
  past : ctx.past = past
  input : SpecInput labelIdx inp x ctx.input

/-- The parts of `SpecCtx` that do not depend on the network. -/
structure BaseCtx (labelIdx : L → Option Int) (S : Dict L V) (t : Nat) (past : Option (List (Option (Dict L V))))
    (inp : Inp I) (x : L) (ctx : NodeCtx L A V I) : Prop where
  node : ctx.node = x
  t : ctx.t = t
  activities : ctx.activities = S
  past : ctx.past = past
  input : SpecInput labelIdx inp x ctx.input

/-- What `State.activities` returns for timestep `i` with activities `d`. -/
def obsActs (cfg : Config L A V I σ κ) (i : Nat) (d : Dict L V) : Option (Dict L V) :=
  if (i = 0 ∨ cfg.persistActs = true) ∧ d.isEmpty = false then
    some (if cfg.compression then unpackActs cfg.labelCodec cfg.valCodec d else d)
  else none

/-- What `State.network` returns for timestep `i` with network `n`. -/
def obsNet (cfg : Config L A V I σ κ) (i : Nat) (n : Net L A) : Option (Net L A) :=
  if (i = 0 ∨ cfg.persistNet = true) ∧ n.nodes.isEmpty = false then
    some (if cfg.compression then n.unpack cfg.labelCodec cfg.attrCodec else n)
  else none

/-- Observed activities of a history. -/
def obsHist (cfg : Config L A V I σ κ) (hist : List (Dict L V × Net L A)) : List (Option (Dict L V)) :=
  hist.mapIdx (fun i p => obsActs cfg i p.1)

/-- The activities at the (possibly negative) time `τ`: observed for `τ ≥ 0`, and the entry `k + τ` of the `k` past
conditions for `τ < 0`. -/
def pastVal (cfg : Config L A V I σ κ) (obs : List (Option (Dict L V))) (τ : Int) : Option (Dict L V) :=
  if τ < 0 then (cfg.past[(cfg.past.length + τ).toNat]?).map (fun c => c.toDict cfg.natLabel)
  else (obs[τ.toNat]?).getD none

/-- The past activities given to the rule at timestep `t`: entry `i` of `k` is the activities `k - i` steps before
the previous timestep. -/
def specPast (cfg : Config L A V I σ κ) (hist : List (Dict L V × Net L A)) (t : Nat) :
    Option (List (Option (Dict L V))) :=
  if cfg.past.isEmpty then none else
    some ((List.range cfg.past.length).map (fun (i : Nat) =>
      pastVal cfg (obsHist cfg hist) ((t : Int) - 1 - (cfg.past.length - (i : Int)))))

/-- The returned states are the history `hist` of activities and networks, seen through the persistence and
compression flags. -/
structure Observes (cfg : Config L A V I σ κ) (res : Evolved L A V σ) (hist : List (Dict L V × Net L A)) : Prop where
  len : res.states.length = hist.length
  acts : ∀ t, res.acts cfg t = (hist[t]?).bind (fun p => obsActs cfg t p.1)
  nets : ∀ t, res.net cfg t = (hist[t]?).bind (fun p => obsNet cfg t p.2)

/-- The network that the activity rule sees at timestep `t ≥ 1`: the one of timestep `t` for `TOPOLOGY_FIRST`, the one
of timestep `t - 1` otherwise. -/
def inForce (order : UpdateOrder) (hist : List (Dict L V × Net L A)) (t : Nat) : Option (Net L A) :=
  (hist[if order = .topologyFirst then t else t - 1]?).map Prod.snd

/-! ## Hypotheses on the callables -/

/-- In-place changes cannot reach a shared object: the network is copied before the topology rule, or the rule leaves
the network it is given unchanged. -/
def Config.Safe (cfg : Config L A V I σ κ) : Prop :=
  cfg.copyNetwork = true ∨
  ∀ rule, cfg.topology = some rule → ∀ ctx u o u', rule ctx u = .ok (o, u') → o.given = ctx.net

/-- Packing does not raise when it is used for the states. -/
def Config.PackOk (cfg : Config L A V I σ κ) : Prop :=
  cfg.compression = true →
    (∀ x, cfg.labelCodec.pack x = .ok ()) ∧ (∀ x, cfg.attrCodec.pack x = .ok ()) ∧ (∀ x, cfg.valCodec.pack x = .ok ())

/-- A log that records the contexts of all rule invocations: the rule appends its context, and the other callables
leave the log alone. -/
structure LogSpec (cfg : Config L A V I σ κ) (log : σ → List (NodeCtx L A V I)) : Prop where
  rule : ∀ r, cfg.rule = some r → ∀ ctx u o u', r ctx u = .ok (o, u') → log u' = log u ++ [ctx]
  pert : ∀ p, cfg.perturbation = some p → ∀ ctx u v u', p ctx u = .ok (v, u') → log u' = log u
  topo : ∀ f, cfg.topology = some f → ∀ ctx u o u', f ctx u = .ok (o, u') → log u' = log u
  inp : ∀ f, cfg.input = .fn f → ∀ t d n u i u', f t d n u = .ok (i, u') → log u' = log u

/-- No invocation of the rule makes a request. -/
def Config.NoReqs (cfg : Config L A V I σ κ) : Prop :=
  ∀ rule, cfg.rule = some rule → ∀ ctx u o u', rule ctx u = .ok (o, u') → o.added = [] ∧ o.removed = []

/-- There is no topology rule, or the rule makes no requests, or requests are ignored because the update order is not
`ACTIVITIES_FIRST`. -/
def Config.FreshNbrs (cfg : Config L A V I σ κ) : Prop :=
  cfg.topology = none ∨ cfg.NoReqs ∨ cfg.order ≠ .activitiesFirst

/-- The function `G` as a rule. -/
def pureRule (G : NodeCtx L A V I → Except Err V) (ctx : NodeCtx L A V I) (u : σ) : Except Err (RuleOut L A V × σ) :=
  match G ctx with
  | .error e => .error e
  | .ok v => .ok (⟨v, [], []⟩, u)

/-- The rule is stateless, may raise, and makes no requests: it is the function `G`. -/
def Config.PureRule (cfg : Config L A V I σ κ) (G : NodeCtx L A V I → Except Err V) : Prop :=
  cfg.rule = some (pureRule G)

/-- The perturbation, if any, is the stateless function in `P`. -/
def Config.PurePert (cfg : Config L A V I σ κ) (P : Option (PertCtx L V I → Except Err V)) : Prop :=
  cfg.perturbation = P.map (fun p ctx u => match p ctx with
    | .error e => .error e
    | .ok v => .ok (v, u))

/-- The networks a topology rule leaves and returns have no repeated labels (they are dicts). -/
def Config.TopNodup (cfg : Config L A V I σ κ) : Prop :=
  ∀ rule, cfg.topology = some rule → ∀ ctx u o u', rule ctx u = .ok (o, u') →
    o.given.labels.Nodup ∧ ∀ n, o.ret = .fresh n → n.labels.Nodup

/-- The callables ignore the timestep they are told. -/
structure Config.TimeFree (cfg : Config L A V I σ κ) : Prop where
  rule : ∀ f, cfg.rule = some f → ∀ ctx t u, f { ctx with t := t } u = f ctx u
  pert : ∀ f, cfg.perturbation = some f → ∀ ctx t u, f { ctx with t := t } u = f ctx u
  topo : ∀ f, cfg.topology = some f → ∀ ctx t u, f { ctx with t := t } u = f ctx u

/-- The topology rule is the stateless function `F` (which may raise). -/
def Config.PureTop (cfg : Config L A V I σ κ) (F : TopCtx L A V → Except Err (TopOut L A)) : Prop :=
  cfg.topology = some (fun ctx u => match F ctx with
    | .error e => .error e
    | .ok o => .ok (o, u))

/-- `B'` is the network that `F` returns at timestep `t` for the network `B` and the activities `S`.  With
`copy_network` the rule is given a copy of `B`. -/
def TopStep (cfg : Config L A V I σ κ) (F : TopCtx L A V → Except Err (TopOut L A)) (t : Nat) (B : Net L A) (S : Dict L V)
    (B' : Net L A) : Prop :=
  ∃ B0 o, (if cfg.copyNetwork = true then B.copy cfg.labelCodec cfg.attrCodec = .ok B0 else B0 = B) ∧
    F ⟨B0, S, t⟩ = .ok o ∧ (o.ret = .fresh B' ∨ (o.ret = .same ∧ o.given = B')) ∧ B'.nodes ≠ []

/-- `S'` is what the stateless rule `G`, followed by the perturbation `P` if there is one, computes from the activities
`S` on the network `N` at timestep `t`. -/
def ActStep (cfg : Config L A V I σ κ) (G : NodeCtx L A V I → Except Err V) (P : Option (PertCtx L V I → Except Err V))
    (t : Nat) (past : Option (List (Option (Dict L V)))) (inp : Inp I) (N : Net L A) (S S' : Dict L V) : Prop :=
  S'.keys = N.labels ∧ ∀ x ∈ N.labels, ∃ ctx v v', SpecCtx cfg.labelIdx N S t past inp x ctx ∧ G ctx = .ok v ∧
    (match P with
    | none => v' = v
    | some p => p ⟨x, v, t, ctx.input⟩ = .ok v') ∧ S'.get? x = some v'

/-! ## Runs -/

/-- `inp` is the input of timestep `t`, when the previous activities and network are `S` and `B`. -/
def InputAt (src : InputSrc L A V I σ) (t : Nat) (S : Dict L V) (B : Net L A) (inp : Inp I) : Prop :=
  match src with
  | .neither => False
  | .timesteps _ => inp = .timestep
  | .list items => items[t - 1]? = some (some inp)
  | .fn f => ∃ u u', f t S B u = .ok (some inp, u')

/-- At timestep `t ≥ 1` of a history the previous activities are `S`, the network the rule sees is `N`, and the input
is `inp`. -/
structure StepAt (cfg : Config L A V I σ κ) (hist : List (Dict L V × Net L A)) (t : Nat) (S : Dict L V) (N : Net L A)
    (inp : Inp I) : Prop where
  prev : ∃ B, hist[t - 1]? = some (S, B) ∧ InputAt cfg.input t S B inp
  net : inForce cfg.order hist t = some N

/-- The contexts `seg` of one timestep. -/
def SegSpec (cfg : Config L A V I σ κ) (hist : List (Dict L V × Net L A)) (t : Nat) (seg : List (NodeCtx L A V I)) : Prop :=
  ∃ S N inp, StepAt cfg hist t S N inp ∧
    (∀ c ∈ seg, ∃ x ∈ N.labels, SpecCtx cfg.labelIdx N S t (specPast cfg hist t) inp x c) ∧
    (cfg.memoize = false → cfg.rule.isSome = true → seg.map (fun c => c.node) = N.labels) ∧
    (cfg.rule = none → seg = [])

/-- The contexts `seg` of one timestep, as far as they do not depend on the network. -/
def BaseSeg (cfg : Config L A V I σ κ) (hist : List (Dict L V × Net L A)) (t : Nat) (seg : List (NodeCtx L A V I)) : Prop :=
  ∃ S N inp, StepAt cfg hist t S N inp ∧
    (∀ c ∈ seg, ∃ x ∈ N.labels, BaseCtx cfg.labelIdx S t (specPast cfg hist t) inp x c)

/-- Every node has a neighbour list, made of nodes of the network. -/
def NetClosed (n : Net L A) : Prop :=
  ∀ x ∈ n.labels, ∃ nb, specNbrs n x = some nb ∧ ∀ y ∈ nb, y ∈ n.labels

/-- The rule and the perturbation never raise, and the rule makes no requests. -/
structure Config.Total (cfg : Config L A V I σ κ) : Prop where
  rule : ∀ rule, cfg.rule = some rule → ∀ ctx u, ∃ v u', rule ctx u = .ok (⟨v, [], []⟩, u')
  pert : ∀ p, cfg.perturbation = some p → ∀ ctx u, ∃ v u', p ctx u = .ok (v, u')

end
end Verif
