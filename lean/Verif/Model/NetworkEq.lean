import Verif.Model.Network
/-! # Model of `==` on networks (`/repo/netomaton/state.py:284-285`) -/

namespace Verif
variable {K V L A : Type}

/-- `d == e` for dicts (Python, used at `state.py:285`): equally many entries, and every entry of the first has an
equal entry in the second.  `eqv` is `==` on the values. -/
def Dict.pyEq [DecidableEq K] (eqv : V → V → Bool) (d e : Dict K V) : Bool :=
  d.length == e.length && d.all (fun p => match e.get? p.1 with
    | some v => eqv p.2 v
    | none => false)

/-- `==` on the attributes of an edge or node, a dict from names to values (used at `state.py:285`). -/
def Net.attrEq [DecidableEq A] (a b : Attr A) : Bool := Dict.pyEq (fun x y => decide (x = y)) a b

/-- `==` on two entries of `_network` (`state.py:251` has the fields, used at `state.py:285`): the counters, the dict
of lists of attributes, the list of targets, and the custom attributes. -/
def Net.nodeEq [DecidableEq L] [DecidableEq A] (v w : Node L A) : Bool :=
  decide (v.inDeg = w.inDeg) && decide (v.outDeg = w.outDeg) &&
    Dict.pyEq (fun as bs => List.isEqv as bs Net.attrEq) v.incoming w.incoming &&
    decide (v.outgoing = w.outgoing) && Net.attrEq v.attrs w.attrs

/-- `Network.__eq__` (`state.py:284-285`) for two networks: only `_network` is compared, as a dict. -/
def Net.pyEq [DecidableEq L] [DecidableEq A] (m n : Net L A) : Bool := Dict.pyEq Net.nodeEq m.nodes n.nodes

end Verif
