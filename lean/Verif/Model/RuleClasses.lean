import Verif.Model.Evolution
/-! # Model of `ReversibleRule` and `AsynchronousRule` -/

namespace Verif
section
variable {L A V I τ : Type} [DecidableEq L]

/-- `a ^ b` on Python integers (`reversible_rule.py:18`): two's complement, unbounded. -/
def pyXor : Int → Int → Int
  | .ofNat a, .ofNat b => .ofNat (a ^^^ b)
  | .ofNat a, .negSucc b => .negSucc (a ^^^ b)
  | .negSucc a, .ofNat b => .negSucc (a ^^^ b)
  | .negSucc a, .negSucc b => .ofNat (a ^^^ b)

/-- `NodeContext.past_activity_of` with the default index -1 (`evolution.py:55-62`).  Without past conditions
`past_activities` is `None`, and subscripting `None` raises `TypeError`; the same for activities that were not
persisted. -/
def pastActivityOf (ctx : NodeCtx L A V I) (x : L) : Except Err V :=
  match ctx.past with
  | none => .error .typeError
  | some ps => match pyGet ps (-1) with
    | .error e => .error e
    | .ok none => .error .typeError
    | .ok (some d) => d.get x

/-- `ReversibleRule.__call__` (`reversible_rule.py:16-19`); the wrapped rule is stateless and may raise. -/
def reversibleRule (g : NodeCtx L A Int I → Except Err Int) (ctx : NodeCtx L A Int I) : Except Err Int :=
  match g ctx with
  | .error e => .error e
  | .ok v => match pastActivityOf ctx ctx.node with
    | .error e => .error e
    | .ok p => .ok (pyXor v p)

/-- The attributes `_update_order`, `_curr`, `_num_applied` of an `AsynchronousRule` (`asynchronous_rule.py:25-32`),
and the number of shuffles made so far. -/
structure Async (L : Type) where
  order : List L
  curr : Nat
  num : Nat
  draws : Nat
  deriving DecidableEq, Repr

/-- `AsynchronousRule.__init__` (`asynchronous_rule.py:23-32`).  `shuffle i n` is the outcome of the `i`-th call of
`_shuffle_update_order(n)` (`asynchronous_rule.py:34-37`), an explicit parameter of the model. -/
def asyncInit (shuffle : Nat → Nat → List L) (order : Option (List L)) (n : Option Nat) : Except Err (Async L) :=
  match order, n with
  | none, none => .error (.exception "either update_order or n must be specified")
  | some o, _ => .ok ⟨o, 0, 0, 0⟩
  | none, some n => .ok ⟨shuffle 0 n, 0, 0, 1⟩

/-- `_check_for_end_of_cycle` (`asynchronous_rule.py:51-56`).  `% len` cannot be reached with an empty order: then
`_should_update` has raised before. -/
def asyncCheck (shuffle : Nat → Nat → List L) (randomize : Bool) (a : Async L) : Async L :=
  if a.num = a.order.length then
    if randomize then ⟨shuffle a.draws a.order.length, (a.curr + 1) % a.order.length, 0, a.draws + 1⟩
    else ⟨a.order, (a.curr + 1) % a.order.length, 0, a.draws⟩
  else a

/-- `AsynchronousRule.__call__` (`asynchronous_rule.py:39-49`).  The wrapped rule has its own state `τ`. -/
def asyncRule (shuffle : Nat → Nat → List L) (randomize : Bool)
    (rule : NodeCtx L A V I → τ → Except Err (RuleOut L A V × τ)) (ctx : NodeCtx L A V I) (s : Async L × τ) :
    Except Err (RuleOut L A V × (Async L × τ)) :=
  let a : Async L := if ctx.node ∈ s.1.order then { s.1 with num := s.1.num + 1 } else s.1
  match a.order[a.curr]? with
  | none => .error .indexError
  | some y =>
    if ctx.node = y then
      match rule ctx s.2 with
      | .error e => .error e
      | .ok (o, u) => .ok (o, asyncCheck shuffle randomize a, u)
    else .ok (⟨ctx.current, [], []⟩, asyncCheck shuffle randomize a, s.2)

end
end Verif
