import Verif.Model.Network
/-! # Model of `lattice` (`/repo/netomaton/topology/networks.py:46-68`)

Only the part of NetworkX that is used: `grid_graph` and `convert_node_labels_to_integers`, for dimensions that are
integers. -/

namespace Verif

/-- A `networkx.Graph` whose nodes are numbered in the order of `G.nodes`.  A pair and its reverse are the same edge, and a
repeated edge counts once (used by `networks.py:60-63`). -/
structure GridGraph where
  size : Nat
  edges : List (Nat × Nat)
  deriving DecidableEq, Repr

/-- `nx.path_graph(n)`, or `nx.cycle_graph(n)`, which raises `IndexError` for `n = 0` (`networks.py:60`). -/
def lineGraph (periodic : Bool) (n : Nat) : Except Err GridGraph :=
  let path := (List.range (n - 1)).map (fun i => (i, i + 1))
  if periodic then (if n = 0 then .error .indexError else .ok ⟨n, path ++ [(n - 1, 0)]⟩)
  else .ok ⟨n, path⟩

/-- `nx.cartesian_product(G, H)` (`networks.py:60`): the nodes are the pairs, those of `G` first. -/
def gridProduct (G H : GridGraph) : GridGraph where
  size := G.size * H.size
  edges := G.edges.flatMap (fun e => (List.range H.size).map (fun x => (e.1 * H.size + x, e.2 * H.size + x))) ++
    (List.range G.size).flatMap (fun u => H.edges.map (fun e => (u * H.size + e.1, u * H.size + e.2)))

/-- One round of the loop of `nx.grid_graph` (`networks.py:60`). -/
def gridStep (periodic : Bool) (G : GridGraph) (d : Nat) : Except Err GridGraph :=
  match lineGraph periodic d with
  | .error e => .error e
  | .ok line => .ok (gridProduct line G)

/-- `nx.grid_graph(dim, periodic)` (`networks.py:60`). -/
def gridGraph (periodic : Bool) (dim : List Nat) : Except Err GridGraph :=
  match dim with
  | [] => .ok ⟨0, []⟩
  | d :: ds => match lineGraph periodic d with
    | .error e => .error e
    | .ok line => ds.foldlM (gridStep periodic) line

/-- The loop body of `lattice` (`networks.py:64-67`); the labels start at `first_label` (`networks.py:61`). -/
def latticeStep {A : Type} (selfLoops : Bool) (first : Int) (e : Nat × Nat) : NetM Int A Unit :=
  if e.1 = e.2 ∧ selfLoops = false then NetM.pure ()
  else do
    Net.addEdge (first + e.2) (first + e.1) []
    Net.addEdge (first + e.1) (first + e.2) []

/-- `lattice` (`networks.py:46-68`).  `enum` is the order in which `G.edges` reports the edges, and the order of the two ends
of an edge (`networks.py:63`): a parameter of the model. -/
def lattice {A : Type} (enum : List (Nat × Nat) → List (Nat × Nat)) (dim : List Nat) (periodic selfLoops : Bool)
    (first : Int) : Except Err (Net Int A) :=
  match gridGraph periodic dim with
  | .error e => .error e
  | .ok G => match NetM.forEach (enum G.edges) (latticeStep selfLoops first) Net.empty with
    | (.error e, _) => .error e
    | (.ok (), n) => .ok n

end Verif
