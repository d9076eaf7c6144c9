import Verif.Model.Evolution
import Verif.Model.Utils
/-! # Model of `substitution_system.py`

`C` is the type of characters, strings are lists of characters; `V` is the type of the activities (the type of the
items of the axiom).  `str` is `str(activity)` and `dtype` the constructor `self._dtype` applied to a character, which
may raise (e.g. `int("A")`). -/

namespace Verif

section
variable {C V A I : Type} [DecidableEq C]

/-- `self._rules.update({c: c for c in self._constants})` (`substitution_system.py:8-9`).  The dict given by the caller is
itself changed, which is not modelled. -/
def substRules (rules : Dict (List C) (List C)) (constants : List (List C)) : Dict (List C) (List C) :=
  rules.update (constants.map (fun c => (c, c)))

/-- `_get_neighbourhood_size` (`substitution_system.py:18-23`); `next(iter({}))` raises `StopIteration`. -/
def neighbourhoodSize (rules : Dict (List C) (List C)) : Except Err Nat :=
  match rules with
  | [] => .error (.exception "StopIteration")
  | p :: ps => if (p :: ps).all (fun q => decide (q.1.length = p.1.length)) then .ok p.1.length
      else .error (.exception "all keys in the rule map must be the same length")

/-- The inner loop body of `_init_network` (`substitution_system.py:31-33`). -/
def substLink (n i j : Nat) : NetM Nat A Unit := if i + j < n then Net.addEdge (i + j) i [] else NetM.pure ()

/-- The loop body of `_init_network` (`substitution_system.py:29-33`). -/
def substNode (m n i : Nat) : NetM Nat A Unit := do
  Net.addEdge i i []
  NetM.forEach (List.range' 1 (m - 1)) (substLink n i)

/-- `_init_network(n)` (`substitution_system.py:25-34`) for keys of length `m`. -/
def substNetwork (m n : Nat) : Net Nat A := (NetM.forEach (List.range n) (substNode m n) Net.empty).2

/-- The attributes changed by the rule (`substitution_system.py:14-16`): `_last_node_index`, `_num_nodes_added`,
`_last_timestep`. -/
structure SubstState where
  last : Nat
  added : Nat
  lastT : Nat
  deriving DecidableEq, Repr

/-- What `__init__` sets up (`substitution_system.py:6-16`): the rules with the constants, the length of the keys, the
network and the state of the rule.  `axiom[0]` raises `IndexError` for an empty axiom. -/
structure SubstSystem (C A : Type) where
  rules : Dict (List C) (List C)
  size : Nat
  network : Net Nat A
  state : SubstState

/-- `SubstitutionSystem.__init__` (`substitution_system.py:6-16`). -/
def substInit (axiom_ : List V) (rules : Dict (List C) (List C)) (constants : List (List C)) : Except Err (SubstSystem C A) :=
  match neighbourhoodSize (substRules rules constants) with
  | .error e => .error e
  | .ok m => if axiom_.isEmpty then .error .indexError
      else .ok ⟨substRules rules constants, m, substNetwork m axiom_.length, ⟨axiom_.length - 1, 0, 0⟩⟩

/-- `_update_last_timestep` (`substitution_system.py:60-63`). -/
def SubstState.update (u : SubstState) (t : Nat) : SubstState := ⟨u.last, if u.lastT ≠ t then 0 else u.added, t⟩

/-- `_get_state` (`substitution_system.py:65-69`): the strings of the activities of the neighbours, joined. -/
def substGetState (str : V → List C) (activities : Dict Nat V) : List Nat → Except Err (List C)
  | [] => .ok []
  | x :: xs => match activities.get x with
    | .error e => .error e
    | .ok v => match substGetState str activities xs with
      | .error e => .error e
      | .ok s => .ok (str v ++ s)

/-- The loop body of `activity_rule` (`substitution_system.py:47-55`).  The keys of `outgoing_links` are different labels,
and `new_node_label - j` is not negative, because `_num_nodes_added <= _last_node_index` always. -/
def substAdd (dtype : C → Except Err V) (m : Nat) (s : SubstState × List (AddReq Nat A V)) (c : C) :
    Except Err (SubstState × List (AddReq Nat A V)) :=
  let label := s.1.last + 1
  let added := s.1.added + 1
  match dtype c with
  | .error e => .error e
  | .ok v => .ok (⟨label, added, s.1.lastT⟩, s.2 ++ [⟨v, (List.range (min added m)).map (fun j => (label - j, [])), label⟩])

/-- `activity_rule` (`substitution_system.py:36-58`).  The rule returns `None`; as the node removes itself, the value is not
used, and the model returns the current activity. -/
def substRule (str : V → List C) (dtype : C → Except Err V) (rules : Dict (List C) (List C)) (m : Nat)
    (ctx : NodeCtx Nat A V I) (u : SubstState) : Except Err (RuleOut Nat A V × SubstState) :=
  let u := u.update ctx.t
  if ctx.neighbours.length ≠ m then .ok (⟨ctx.current, [], [ctx.node]⟩, u)
  else match substGetState str ctx.activities ctx.neighbours with
    | .error e => .error e
    | .ok s => match rules.get s with
      | .error e => .error e
      | .ok new => match new.foldlM (substAdd dtype m) (u, []) with
        | .error e => .error e
        | .ok (u', reqs) => .ok (⟨ctx.current, reqs, [ctx.node]⟩, u')

/-- The rows of the activities in the order of the labels (`substitution_system.py:82-83, 90`); a state without activities
raises `noneErr`. -/
def substRows (noneErr : Err) (states : List (Option (Dict Nat V))) : Except Err (List (List V)) :=
  match states with
  | [] => .ok []
  | none :: _ => .error noneErr
  | some d :: rest => match substRows noneErr rest with
    | .error e => .error e
    | .ok rows => .ok (activityRow (fun a b => decide (a ≤ b)) d :: rows)

/-- `pad` (`substitution_system.py:79-84`): the rows filled up with zeros; `np.max` of an empty list raises `ValueError`, and
`None.items()` raises `AttributeError`. -/
def substPad (zero : V) (states : List (Option (Dict Nat V))) : Except Err (List (List V)) :=
  match substRows (.exception "AttributeError") states with
  | .error e => .error e
  | .ok [] => .error .valueError
  | .ok (r :: rows) =>
    let width := (r :: rows).foldl (fun w row => max w row.length) 0
    .ok ((r :: rows).map (fun row => row ++ List.replicate (width - row.length) zero))

/-- `to_string` (`substitution_system.py:86-91`) for activities that are strings; `sorted(None)` raises `TypeError`. -/
def substToString (states : List (Option (Dict Nat (List C)))) : Except Err (List (List C)) :=
  match substRows .typeError states with
  | .error e => .error e
  | .ok rows => .ok (rows.map List.flatten)

end
end Verif
