import Verif.Model.RuleClasses
/-! # What an asynchronous rule should do -/

namespace Verif
section
variable {L A V I τ κ : Type} [DecidableEq L]

/-- At timestep `t` only the node `pick t` is given the rule's value; every other node keeps its activity. -/
def pickRule (pick : Nat → Option L) (rule : NodeCtx L A V I → τ → Except Err (RuleOut L A V × τ))
    (ctx : NodeCtx L A V I) (u : τ) : Except Err (RuleOut L A V × τ) :=
  if pick ctx.t = some ctx.node then rule ctx u else .ok (⟨ctx.current, [], []⟩, u)

/-- The node at position `(t-1) mod len` of the update order. -/
def cyclic (order : List L) (t : Nat) : Option L := order[(t - 1) % order.length]?

/-- The order in force at timestep `t + 1`, when the rule starts with the order `O` and `d` shuffles were made before. -/
def orderAt (sh : Nat → Nat → List L) (rand : Bool) (O : List L) (d : Nat) : Nat → List L
  | 0 => O
  | t + 1 => if rand then sh (d + t) O.length else O

/-- A function on the user's state, applied beside further state. -/
def besides {α β τ : Type} (f : τ → Except Err (β × τ)) (s : α × τ) : Except Err (β × (α × τ)) :=
  match f s.2 with
  | .error e => .error e
  | .ok (b, u) => .ok (b, (s.1, u))

/-- An input function of a user's state, used beside further state. -/
def InputSrc.beside (α : Type) : InputSrc L A V I τ → InputSrc L A V I (α × τ)
  | .neither => .neither
  | .timesteps k => .timesteps k
  | .list items => .list items
  | .fn f => .fn (fun t acts n => besides (f t acts n))

/-- The arguments of `evolve` with another rule, which has its own state beside the user's. -/
def Config.withRule (cfg : Config L A V I τ κ) {α : Type}
    (rule : NodeCtx L A V I → α × τ → Except Err (RuleOut L A V × (α × τ))) : Config L A V I (α × τ) κ :=
  { rule := some rule, input := cfg.input.beside α, topology := cfg.topology.map (fun f c => besides (f c)),
    perturbation := cfg.perturbation.map (fun f c => besides (f c)), past := cfg.past, order := cfg.order,
    copyNetwork := cfg.copyNetwork, compression := cfg.compression, persistActs := cfg.persistActs,
    persistNet := cfg.persistNet, memoize := cfg.memoize, key := cfg.key, natLabel := cfg.natLabel,
    labelIdx := cfg.labelIdx, actAttr := cfg.actAttr, labelCodec := cfg.labelCodec, attrCodec := cfg.attrCodec,
    valCodec := cfg.valCodec }

/-- Two outcomes show the same: both finish with the same states (of the same activities and networks) and the same
state of the user, or both raise the same exception. -/
def SameOutcome {α : Type} (x : Except Err (Evolved L A V (α × τ))) (y : Except Err (Evolved L A V τ)) : Prop :=
  (∃ e, x = .error e ∧ y = .error e) ∨
  ∃ a b, x = .ok a ∧ y = .ok b ∧ a.states = b.states ∧ a.world.heap = b.world.heap ∧ a.world.user.2 = b.world.user

end
end Verif
