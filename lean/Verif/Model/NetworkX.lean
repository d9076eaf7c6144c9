import Verif.Model.Network
/-! # Model of the NetworkX conversion (`/repo/netomaton/state.py:183-214`)

Only the part of NetworkX that these methods use. -/

namespace Verif

/-- `networkx.MultiDiGraph`: node attributes, and `adj[u][v]`, the data dicts of the parallel edges from `u` to `v`
(used at `state.py:205-213`).  Edge keys are the positions in the list. -/
structure NX (L A : Type) where
  nodes : Dict L (Attr A)
  adj : Dict L (Dict L (List (Attr A)))

namespace NX
variable {L A : Type} [DecidableEq L]

/-- `nx.MultiDiGraph()` (`state.py:205`). -/
def empty : NX L A := ⟨[], []⟩

/-- Creates the node `u` if it is missing (NetworkX, used by `state.py:211, 213`). -/
def ensure (G : NX L A) (u : L) : NX L A :=
  if G.nodes.has u then G else ⟨G.nodes.set u [], G.adj.set u []⟩

/-- `G.add_node(u, **attr)` (`state.py:211`). -/
def addNode (G : NX L A) (u : L) (attr : Attr A) : NX L A :=
  let G' := G.ensure u
  ⟨G'.nodes.modify u (fun a => a.update attr), G'.adj⟩

/-- `G.add_edge(u, v, **attr)` (`state.py:213`): a new parallel edge.  The attribute name `key` has a special meaning
in NetworkX and is not modelled. -/
def addEdge (G : NX L A) (u v : L) (attr : Attr A) : NX L A :=
  let G' := (G.ensure u).ensure v
  ⟨G'.nodes, G'.adj.modify u (fun d => d.set v ((d.get? v).getD [] ++ [attr]))⟩

/-- `G.edges(data=True)` (`state.py:195`): by source, then by target in order of first insertion, then by edge. -/
def edgesData (G : NX L A) : List (L × L × Attr A) :=
  G.adj.flatMap (fun p => p.2.flatMap (fun q => q.2.map (fun a => (p.1, q.1, a))))

end NX

/-- `networkx.Graph` or `networkx.MultiGraph` (argument of `state.py:184`): undirected edges in insertion order. -/
structure UNX (L A : Type) where
  nodes : Dict L (Attr A)
  edges : List (L × L × Attr A)

namespace UNX
variable {L A : Type} [DecidableEq L]

/-- Orientation in which `G.edges` reports an edge: from the endpoint that comes first in `G.nodes`
(`state.py:195`). -/
def orient (G : UNX L A) (e : L × L × Attr A) : L × L × Attr A :=
  if G.nodes.keys.idxOf e.1 ≤ G.nodes.keys.idxOf e.2.1 then e else (e.2.1, e.1, e.2.2)

/-- `G.edges(data=True)` (`state.py:195`): every edge once.  Simplified: in insertion order. -/
def edgesData (G : UNX L A) : List (L × L × Attr A) := G.edges.map G.orient

end UNX

namespace Net
variable {L A : Type} [DecidableEq L]

/-- The loops of `Network.from_networkx` (`state.py:192-197`) over node data and edge data. -/
def fromData (nodes : Dict L (Attr A)) (edges : List (L × L × Attr A)) : Except Err Unit × Net L A :=
  (do NetM.forEach nodes (fun p => addNode p.1 p.2)
      NetM.forEach edges (fun e => addEdge e.1 e.2.1 e.2.2) : NetM L A Unit) Net.empty

/-- `Network.from_networkx(G)` for a directed graph (`state.py:183-197`). -/
def fromNetworkx (G : NX L A) : Except Err Unit × Net L A := fromData G.nodes G.edgesData

/-- `Network.from_networkx(G)` for an undirected graph (`state.py:183-197`). -/
def fromNetworkxU (G : UNX L A) : Except Err Unit × Net L A := fromData G.nodes G.edgesData

/-- `Network.to_networkx` (`state.py:199-214`). -/
def toNetworkx (n : Net L A) : NX L A :=
  n.edges.foldl (fun G e => G.addEdge e.1 e.2.1 e.2.2)
    (n.nodes.foldl (fun G p => G.addNode p.1 p.2.attrs) NX.empty)

end Net
end Verif
