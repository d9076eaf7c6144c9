import Verif.Spec.Multigraph
import Verif.Model.Network
/-! # Specification: effect of the public calls on the abstract multigraph

Only the type of calls (`Net.Op`) and Python's index convention (`pyIndex`) come from the model. -/

namespace Verif.MG
variable {L A : Type} [DecidableEq L]

/-- Updates the edges from `i` to `j` at the given indices, one after the other; stops at a bad index. -/
def updateMany (g : MG L A) (i j : L) (attr : Dict String A) : List Int → Except Err Unit × MG L A
  | [] => (.ok (), g)
  | k :: ks =>
    match pyIndex (between g.edges i j).length k with
    | none => (.error .indexError, g)
    | some p => updateMany { g with edges := updateNth i j attr p g.edges } i j attr ks

/-- Outcome and effect of a call. -/
def exec (g : MG L A) : Net.Op L A → Except Err Unit × MG L A
  | .addNode x attr => (.ok (), addNode g x attr)
  | .addEdge i j attr => (.ok (), addEdge g i j attr)
  | .addEdgeBidir i j attr => (.ok (), addEdge (addEdge g i j attr) j i attr)
  | .updateEdge i j ks attr =>
    if between g.edges i j = [] then (.error (.exception "edge does not exist"), g)
    else match ks with
      | none => (.ok (), updateAll g i j attr)
      | some ks => updateMany g i j attr ks
  | .removeNode x => if x ∈ g.labels then (.ok (), removeNode g x) else (.error .keyError, g)
  | .removeEdge i j => if between g.edges i j = [] then (.error .keyError, g) else (.ok (), removeEdge g i j)
  | .setRotation rs =>
    if ∀ p ∈ rs, p.1 ∈ g.labels ∧ ∀ x ∈ p.2, x ∈ g.labels then (.ok (), { g with rot := some rs })
    else (.error .assertion, g)

/-- The multigraph after a sequence of calls. -/
def run (g : MG L A) (ops : List (Net.Op L A)) : MG L A := ops.foldl (fun g op => (exec g op).2) g

/-- No nodes, no edges. -/
def empty : MG L A := ⟨[], [], none⟩

end Verif.MG
