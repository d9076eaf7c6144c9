import Verif.Spec.MultigraphOps
/-! # Specification: when two multigraphs are the same

Independent of how networks are stored: labels, attributes as mappings, parallel edges by age, and the targets of the
edges that leave a node by age. -/

namespace Verif.Spec
variable {L A : Type} [DecidableEq L]

/-- The same names with the same values. -/
def SameAttrs (a b : Dict String A) : Prop := ∀ name, a.get? name = b.get? name

/-- Equally long lists of attributes, the same position by position. -/
def SameParallel (as bs : List (Dict String A)) : Prop :=
  as.length = bs.length ∧ ∀ (p : Nat) a b, as[p]? = some a → bs[p]? = some b → SameAttrs a b

/-- The targets of the edges that leave `i`, oldest first. -/
def targets (es : List (Edge L A)) (i : L) : List L := (es.filter (fun e => decide (e.src = i))).map Edge.dst

/-- Two multigraphs that differ at most in the order of their nodes, in the order of edges with different sources, and
in their rotation systems. -/
structure SameGraph (g h : MG L A) : Prop where
  labels : ∀ x, x ∈ g.labels ↔ x ∈ h.labels
  attrs : ∀ x a b, g.nodes.get? x = some a → h.nodes.get? x = some b → SameAttrs a b
  parallel : ∀ i j, SameParallel (MG.between g.edges i j) (MG.between h.edges i j)
  targets : ∀ i, targets g.edges i = targets h.edges i

/-- A call whose keyword arguments have different names, as Python demands. -/
def Keywords : Net.Op L A → Prop
  | .addNode _ attr => attr.keys.Nodup
  | .addEdge _ _ attr => attr.keys.Nodup
  | .addEdgeBidir _ _ attr => attr.keys.Nodup
  | .updateEdge _ _ _ attr => attr.keys.Nodup
  | .removeNode _ => True
  | .removeEdge _ _ => True
  | .setRotation _ => True

end Verif.Spec
