import Verif.Model.Network
/-! # Model of the adjacency-matrix conversions
(`/repo/netomaton/state.py:216-244`, `/repo/netomaton/topology/networks.py:85-91`)

`W` is the number type of the weights; `toW` reads an attribute value as a number.  Floats are exact. -/

namespace Verif

/-- `w = atts[weight] if weight in atts else 1` (`state.py:237`); `weight=None` is never a key. -/
def edgeWeight {A W : Type} [One W] (toW : A → W) (weight : Option String) (atts : Attr A) : W :=
  match weight with
  | none => 1
  | some k => match atts.get? k with
    | some v => toW v
    | none => 1

/-- `M[i][j] += w` or `M[i][j] = w` (`state.py:240-243`) with `IndexError`; `i`, `j` come from `list.index`, hence are
not negative. -/
def putEntry {W : Type} [Add W] (sum : Bool) (M : List (List W)) (i j : Nat) (w : W) : Except Err (List (List W)) :=
  match M[i]? with
  | none => .error .indexError
  | some row => match row[j]? with
    | none => .error .indexError
    | some old => .ok (M.set i (row.set j (if sum then old + w else w)))

/-- Loop body of `to_adjacency_matrix` (`state.py:236-243`); `nodelist.index` raises `ValueError`. -/
def adjStep {L A W : Type} [DecidableEq L] [Add W] [One W] (toW : A → W) (weight : Option String) (sum : Bool)
    (nodelist : List L) (M : List (List W)) (t : L × L × Attr A) : Except Err (List (List W)) :=
  match nodelist.idxOf? t.1 with
  | none => .error .valueError
  | some i => match nodelist.idxOf? t.2.1 with
    | none => .error .valueError
    | some j => putEntry sum M i j (edgeWeight toW weight t.2.2)

/-- `to_adjacency_matrix` (`state.py:216-244`).  `nodelist = []` counts as missing (`if not nodelist`). -/
def Net.toAdjacencyMatrix {L A W : Type} [DecidableEq L] [Add W] [One W] [Zero W] (toW : A → W) (n : Net L A)
    (nodelist : Option (List L)) (sum : Bool) (weight : Option String) : Except Err (List (List W)) :=
  let M := List.replicate n.size (List.replicate n.size (0 : W))
  let nl := match nodelist with
    | none => n.labels
    | some [] => n.labels
    | some l => l
  n.edges.foldlM (adjStep toW weight sum nl) M

/-- The non-zero entries `(i, j, val)` in the order of the nested loops (`networks.py:87-89`). -/
def matrixEntries {W : Type} [Zero W] [DecidableEq W] (M : List (List W)) : List (Nat × Nat × W) :=
  M.zipIdx.flatMap (fun r => (r.1.zipIdx.filter (fun c => decide (c.1 ≠ 0))).map (fun c => (r.2, c.2, c.1)))

/-- `from_adjacency_matrix` (`networks.py:85-91`): one `add_edge(i, j, weight=val)` per non-zero entry. -/
def fromAdjacencyMatrix {W : Type} [Zero W] [DecidableEq W] (M : List (List W)) : Net Nat W :=
  Net.run Net.empty ((matrixEntries M).map (fun t => Net.Op.addEdge t.1 t.2.1 [("weight", t.2.2)]))

end Verif
