import Verif.Py.Dict
import Verif.Py.Index
/-! # Model of `Network` (`/repo/netomaton/state.py:6-285`)

`L` is the type of node labels, `A` the type of attribute values. -/

namespace Verif

/-- Keyword attributes of an edge or node (`**attr`, `state.py:18, 56, 69`). -/
abbrev Attr (A : Type) := Dict String A

/-- One entry of `Network._network`: `{"in", "out", "incoming", "outgoing"}` (`state.py:250-251`) plus the custom
attributes that `add_node` merges into the same dict (`state.py:67`).  Simplified: custom attributes live in a field
of their own, so attributes named like one of the four reserved keys are not modelled. -/
structure Node (L A : Type) where
  inDeg : Int
  outDeg : Int
  incoming : Dict L (List (Attr A))
  outgoing : List L
  attrs : Attr A
  deriving DecidableEq, Repr

/-- `Network.__slots__` (`state.py:7`): `_network` and `_rotation_system`. -/
structure Net (L A : Type) where
  nodes : Dict L (Node L A)
  rotation : Option (Dict L (List L))
  deriving DecidableEq, Repr

/-- A method call on a network (`state.py:6-285`): it may raise, and the mutations made before the exception persist. -/
def NetM (L A α : Type) := Net L A → Except Err α × Net L A

namespace NetM
variable {L A α β : Type}

/-- Statement without effect (methods of `state.py:6-285`). -/
def pure (a : α) : NetM L A α := fun n => (.ok a, n)

/-- Sequencing of Python statements (methods of `state.py:6-285`): an exception skips the rest and keeps the mutations made so far. -/
def bind (x : NetM L A α) (f : α → NetM L A β) : NetM L A β := fun n =>
  match x n with
  | (.ok a, n') => f a n'
  | (.error e, n') => (.error e, n')

instance : Monad (NetM L A) where
  pure := NetM.pure
  bind := NetM.bind

/-- `raise` (`state.py:71` and implicit ones). -/
def throw (e : Err) : NetM L A α := fun n => (.error e, n)

/-- An expression that may raise and does not change the network (such as the lookups at `state.py:70, 97`). -/
def lift (r : Except Err α) : NetM L A α := fun n => (r, n)

/-- `for b in bs: f(b)` (such as `state.py:74-78, 81-85`). -/
def forEach : List β → (β → NetM L A Unit) → NetM L A Unit
  | [], _ => pure ()
  | b :: bs, f => bind (f b) (fun _ => forEach bs f)

end NetM

namespace Net
variable {L A : Type} [DecidableEq L]

/-- `_new_node` (`state.py:250-251`). -/
def newNode : Node L A := ⟨0, 0, [], [], []⟩

/-- `Network()` (`state.py:9-16` with `n=0`). -/
def empty : Net L A := ⟨[], none⟩

/-- `Network(n)` (`state.py:9-16`): nodes `0..n-1` without edges. -/
def ofSize (n : Nat) : Net Nat A := ⟨(List.range n).map (fun i => (i, newNode)), none⟩

/-- `self._network[x]`, raising `KeyError` (such as `state.py:81, 97, 128`). -/
def getNode (x : L) : NetM L A (Node L A) := fun n => (n.nodes.get x, n)

/-- `self._network[x][...] = ...`: in-place change of an existing node dict, `KeyError` if `x` is absent (such as
`state.py:254-269`). -/
def withNode (x : L) (f : Node L A → Node L A) : NetM L A Unit := fun n =>
  if n.nodes.has x then (.ok (), { n with nodes := n.nodes.modify x f }) else (.error .keyError, n)

/-- `_init_node` (`state.py:246-248`). -/
def initNode (x : L) : NetM L A Unit := fun n =>
  if n.nodes.has x then (.ok (), n) else (.ok (), { n with nodes := n.nodes.set x newNode })

/-- `_increment_out_degree` (`state.py:253-254`). -/
def incOut (x : L) (k : Int) : NetM L A Unit := withNode x (fun d => { d with outDeg := d.outDeg + k })
/-- `_decrement_out_degree` (`state.py:256-257`). -/
def decOut (x : L) (k : Int) : NetM L A Unit := withNode x (fun d => { d with outDeg := d.outDeg - k })
/-- `_increment_in_degree` (`state.py:259-260`). -/
def incIn (x : L) (k : Int) : NetM L A Unit := withNode x (fun d => { d with inDeg := d.inDeg + k })
/-- `_decrement_in_degree` (`state.py:262-263`). -/
def decIn (x : L) (k : Int) : NetM L A Unit := withNode x (fun d => { d with inDeg := d.inDeg - k })
/-- `_add_outgoing` (`state.py:265-266`). -/
def addOutgoing (i j : L) : NetM L A Unit := withNode i (fun d => { d with outgoing := d.outgoing ++ [j] })
/-- `_remove_outgoing` (`state.py:268-269`). -/
def removeOutgoing (i j : L) : NetM L A Unit :=
  withNode i (fun d => { d with outgoing := d.outgoing.filter (fun x => decide (x ≠ j)) })
/-- `_remove_incoming` (`state.py:271-273`). -/
def removeIncoming (i j : L) : NetM L A Unit :=
  withNode j (fun d => { d with incoming := if d.incoming.has i then d.incoming.erase i else d.incoming })

/-- `state.py:33-35`: `if i not in incoming: incoming[i] = []`, then `incoming[i].append(attr)`. -/
def pushIncoming (inc : Dict L (List (Attr A))) (i : L) (attr : Attr A) : Dict L (List (Attr A)) :=
  (if inc.has i then inc else inc.set i []).modify i (fun l => l ++ [attr])

/-- `add_edge` (`state.py:18-38`). -/
def addEdge (i j : L) (attr : Attr A) : NetM L A Unit := do
  initNode i
  initNode j
  withNode j (fun d => { d with incoming := pushIncoming d.incoming i attr })
  incIn j 1
  incOut i 1
  addOutgoing i j

/-- `add_edge_bidir` (`state.py:40-54`). -/
def addEdgeBidir (i j : L) (attr : Attr A) : NetM L A Unit := do
  addEdge i j attr
  addEdge j i attr

/-- `add_node` (`state.py:56-67`). -/
def addNode (x : L) (attr : Attr A) : NetM L A Unit := do
  initNode x
  withNode x (fun d => { d with attrs := d.attrs.update attr })

/-- Body of the loops in `update_edge` (`state.py:74-78`): `self._network[j]["incoming"][i][k].update(attr)`;
`IndexError` for a bad `k`. -/
def updateEdgeAt (i j : L) (attr : Attr A) (k : Int) : NetM L A Unit := fun n =>
  match n.nodes.get? j with
  | none => (.error .keyError, n)
  | some d => match d.incoming.get? i with
    | none => (.error .keyError, n)
    | some es => match pyIndex es.length k with
      | none => (.error .indexError, n)
      | some p => (.ok (), { n with nodes := n.nodes.modify j (fun d =>
          { d with incoming := d.incoming.modify i (fun l => l.modify p (fun e => e.update attr)) }) })

/-- `update_edge` (`state.py:69-78`). -/
def updateEdge (i j : L) (indices : Option (List Int)) (attr : Attr A) : NetM L A Unit := fun n =>
  match n.nodes.get? j with
  | none => (.error (.exception "edge does not exist"), n)
  | some d => match d.incoming.get? i with
    | none => (.error (.exception "edge does not exist"), n)
    | some _ => match indices with
      | none => (.ok (), { n with nodes := n.nodes.modify j (fun d =>
          { d with incoming := d.incoming.modify i (fun l => l.map (fun e => e.update attr)) }) })
      | some ks => NetM.forEach ks (updateEdgeAt i j attr) n

/-- `del self._network[x]` (`state.py:87`), `KeyError` if absent. -/
def delNode (x : L) : NetM L A Unit := fun n =>
  if n.nodes.has x then (.ok (), { n with nodes := n.nodes.erase x }) else (.error .keyError, n)

/-- `remove_node` (`state.py:80-87`).  The `outgoing` list is read again after the first loop, which reassigns it for
a self-loop. -/
def removeNode (x : L) : NetM L A Unit := do
  let d ← getNode x
  NetM.forEach d.incoming (fun p => do
    decOut p.1 (p.2.length : Int)
    removeOutgoing p.1 x)
  let d ← getNode x
  NetM.forEach d.outgoing (fun j => do
    decIn j 1
    removeIncoming x j)
  delNode x

/-- `remove_edge` (`state.py:89-101`). -/
def removeEdge (i j : L) : NetM L A Unit := do
  let d ← getNode j
  let es ← NetM.lift (d.incoming.get i)
  removeOutgoing i j
  decOut i (es.length : Int)
  decIn j (es.length : Int)
  removeIncoming i j

/-- The `rotation_system` setter (`state.py:107-125`).  `rs[node_label]` is the value stored with the key, which is
what the dict lookup at line 122 yields. -/
def setRotation (rs : Dict L (List L)) : NetM L A Unit := fun n =>
  if rs.all (fun p => n.nodes.has p.1 && p.2.all (fun x => n.nodes.has x)) then
    (.ok (), { n with rotation := some rs })
  else (.error .assertion, n)

/-! ## Queries -/

/-- `nodes` (`state.py:136-138`). -/
def labels (n : Net L A) : List L := n.nodes.keys

/-- `len(network)` (`state.py:281-282`). -/
def size (n : Net L A) : Nat := n.nodes.length

/-- `in_edges` (`state.py:127-128`). -/
def inEdges (n : Net L A) (x : L) : Except Err (Dict L (List (Attr A))) :=
  (n.nodes.get x).map Node.incoming

/-- `edge` (`state.py:130-131`). -/
def edge (n : Net L A) (i j : L) : Except Err (List (Attr A)) :=
  match n.nodes.get j with
  | .error e => .error e
  | .ok d => d.incoming.get i

/-- `edges` (`state.py:140-145`): all triples `(i, j, attr)` in generation order. -/
def edges (n : Net L A) : List (L × L × Attr A) :=
  n.nodes.flatMap (fun q => q.2.incoming.flatMap (fun p => p.2.map (fun a => (p.1, q.1, a))))

/-- `has_edge` (`state.py:147-148`). -/
def hasEdge (n : Net L A) (i j : L) : Bool :=
  match n.nodes.get? j with
  | none => false
  | some d => d.incoming.has i

/-- `in_degree` (`state.py:153-154`). -/
def inDegree (n : Net L A) (x : L) : Except Err Int := (n.nodes.get x).map Node.inDeg
/-- `out_degree` (`state.py:156-157`). -/
def outDegree (n : Net L A) (x : L) : Except Err Int := (n.nodes.get x).map Node.outDeg
/-- `degree` (`state.py:150-151`). -/
def degree (n : Net L A) (x : L) : Except Err Int := (n.nodes.get x).map (fun d => d.outDeg + d.inDeg)

/-! ## Histories -/

/-- One mutating call on a network (`state.py:18-125`). -/
inductive Op (L A : Type) where
  | addNode (x : L) (attr : Attr A)
  | addEdge (i j : L) (attr : Attr A)
  | addEdgeBidir (i j : L) (attr : Attr A)
  | updateEdge (i j : L) (indices : Option (List Int)) (attr : Attr A)
  | removeNode (x : L)
  | removeEdge (i j : L)
  | setRotation (rs : Dict L (List L))

/-- Executes one call (`state.py:18-125`). -/
def exec : Op L A → NetM L A Unit
  | .addNode x at' => addNode x at'
  | .addEdge i j at' => addEdge i j at'
  | .addEdgeBidir i j at' => addEdgeBidir i j at'
  | .updateEdge i j ks at' => updateEdge i j ks at'
  | .removeNode x => removeNode x
  | .removeEdge i j => removeEdge i j
  | .setRotation rs => setRotation rs

/-- The network after a sequence of calls, where the caller catches every exception and goes on
(not in the repository: it is the arbitrary user program over `state.py:18-125`). -/
def run (n : Net L A) (ops : List (Op L A)) : Net L A := ops.foldl (fun n op => (exec op n).2) n

end Net
end Verif
