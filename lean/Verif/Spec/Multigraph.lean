import Verif.Py.Dict
/-! # Specification: directed multigraphs with insertion order

Independent of the model of `Network`: a node list with attributes and a list of edges, oldest first. -/

namespace Verif

/-- A directed edge with attributes. -/
structure Edge (L A : Type) where
  src : L
  dst : L
  attr : Dict String A
  deriving DecidableEq, Repr

/-- Abstract multigraph: nodes with attributes, and edges, both in insertion order, and an optional assignment of
neighbour orders. -/
structure MG (L A : Type) where
  nodes : Dict L (Dict String A)
  edges : List (Edge L A)
  rot : Option (Dict L (List L))
  deriving DecidableEq, Repr

namespace MG
variable {L A : Type} [DecidableEq L]

/-- Labels in insertion order. -/
def labels (g : MG L A) : List L := g.nodes.map Prod.fst

/-- Attributes of the edges from `i` to `j`, oldest first. -/
def between (es : List (Edge L A)) (i j : L) : List (Dict String A) :=
  (es.filter (fun e => decide (e.src = i) && decide (e.dst = j))).map Edge.attr

/-- First occurrences. -/
def dedup : List L → List L
  | [] => []
  | a :: l => a :: (dedup l).filter (fun x => decide (x ≠ a))

/-- The sources of the edges into `j`, by age of the oldest surviving edge, once each. -/
def sources (es : List (Edge L A)) (j : L) : List L :=
  dedup ((es.filter (fun e => decide (e.dst = j))).map Edge.src)

/-- Number of edges into `x`. -/
def inCount (es : List (Edge L A)) (x : L) : Nat := (es.filter (fun e => decide (e.dst = x))).length

/-- Number of edges out of `x`. -/
def outCount (es : List (Edge L A)) (x : L) : Nat := (es.filter (fun e => decide (e.src = x))).length

/-- Every endpoint is a node, and labels are not repeated. -/
structure Valid (g : MG L A) : Prop where
  nodup : g.labels.Nodup
  closed : ∀ e ∈ g.edges, e.src ∈ g.labels ∧ e.dst ∈ g.labels

/-- Adds a node at the end unless it exists. -/
def ensure (g : MG L A) (x : L) : MG L A :=
  if x ∈ g.labels then g else { g with nodes := g.nodes ++ [(x, [])] }

/-- Adds (or extends the attributes of) a node. -/
def addNode (g : MG L A) (x : L) (attr : Dict String A) : MG L A :=
  { ensure g x with nodes := (ensure g x).nodes.map (fun p => if p.1 = x then (p.1, p.2.update attr) else p) }

/-- Appends one edge, creating its endpoints if necessary. -/
def addEdge (g : MG L A) (i j : L) (attr : Dict String A) : MG L A :=
  { ensure (ensure g i) j with edges := g.edges ++ [⟨i, j, attr⟩] }

/-- Drops a node and its incident edges. -/
def removeNode (g : MG L A) (x : L) : MG L A :=
  { g with nodes := g.nodes.filter (fun p => decide (p.1 ≠ x)),
           edges := g.edges.filter (fun e => decide (e.src ≠ x) && decide (e.dst ≠ x)) }

/-- Drops all edges from `i` to `j`. -/
def removeEdge (g : MG L A) (i j : L) : MG L A :=
  { g with edges := g.edges.filter (fun e => !(decide (e.src = i) && decide (e.dst = j))) }

/-- Changes the attributes of all edges from `i` to `j`. -/
def updateAll (g : MG L A) (i j : L) (attr : Dict String A) : MG L A :=
  { g with edges := g.edges.map (fun e => if e.src = i ∧ e.dst = j then { e with attr := e.attr.update attr } else e) }

/-- Changes the attributes of the `p`-th (counting from 0) edge from `i` to `j` in a list of edges. -/
def updateNth (i j : L) (attr : Dict String A) : Nat → List (Edge L A) → List (Edge L A)
  | _, [] => []
  | p, e :: es =>
    if e.src = i ∧ e.dst = j then
      match p with
      | 0 => { e with attr := e.attr.update attr } :: es
      | p + 1 => e :: updateNth i j attr p es
    else e :: updateNth i j attr p es

end MG
end Verif
