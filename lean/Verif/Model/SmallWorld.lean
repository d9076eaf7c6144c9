import Verif.Model.Matrix
/-! # Model of `watts_strogatz_graph` (`/repo/netomaton/topology/networks.py:94-110`)

Only the part of NetworkX that is used: `nx.watts_strogatz_graph` and `nx.adjacency_matrix`, for natural numbers `n` and
`k`.  NetworkX is not part of the repository; its functions are transcribed from their published source.  A graph is
the list of its edges; a pair and its reverse are the same edge, and the nodes are `0 … n - 1` in this order (the first
round of edges `(0, 1), (1, 2), …` creates them so). -/

namespace Verif

/-- The two ways to write an edge (`networks.py:108`). -/
def nxSame (e : Nat × Nat) (u v : Nat) : Bool := decide (e = (u, v)) || decide (e = (v, u))

/-- `G.has_edge(u, v)` (`networks.py:108`). -/
def nxHas (G : List (Nat × Nat)) (u v : Nat) : Bool := G.any (fun e => nxSame e u v)

/-- `G.add_edge(u, v)` (`networks.py:108`): nothing happens if the edge exists. -/
def nxAdd (G : List (Nat × Nat)) (u v : Nat) : List (Nat × Nat) := if nxHas G u v then G else G ++ [(u, v)]

/-- `G.remove_edge(u, v)` (`networks.py:108`): raises if there is no such edge. -/
def nxRemove (G : List (Nat × Nat)) (u v : Nat) : Except Err (List (Nat × Nat)) :=
  if nxHas G u v then .ok (G.filter (fun e => !nxSame e u v)) else .error (.exception "edge not in the graph")

/-- `G.degree(u)` of a graph without loops (`networks.py:108`). -/
def nxDegree (G : List (Nat × Nat)) (u : Nat) : Nat := G.countP (fun e => decide (e.1 = u) || decide (e.2 = u))

/-- `zip(nodes, nodes[j:] + nodes[0:j])`, for the nodes `0 … n - 1` (`networks.py:108`). -/
def nxShifted (n j : Nat) : List (Nat × Nat) :=
  (List.range n).zip ((List.range n).drop j ++ (List.range n).take j)

/-- All pairs in the order of the two loops, `j` from 1 to `k // 2` (`networks.py:108`). -/
def nxPairs (n k : Nat) : List (Nat × Nat) := (List.range (k / 2)).flatMap (fun j => nxShifted n (j + 1))

/-- The ring with its `k // 2` nearest neighbours on each side (`networks.py:108`). -/
def nxRing (n k : Nat) : List (Nat × Nat) := (nxPairs n k).foldl (fun G e => nxAdd G e.1 e.2) []

/-- The `while` loop that looks for the new end of an edge of `u` (`networks.py:108`).  `w` is the last draw of `seed.choice(nodes)`,
`ds` are the next ones.  `.ok none`: the loop was left by `break`; out of fuel: the given draws do not end the loop. -/
def nxDraw (n : Nat) (G : List (Nat × Nat)) (u : Nat) : Nat → List Nat → Except Err (Option Nat)
  | w, [] => if w = u ∨ nxHas G u w = true then .error .outOfFuel else .ok (some w)
  | w, d :: ds =>
    if w = u ∨ nxHas G u w = true then
      (if n - 1 ≤ nxDegree G u then .ok none else nxDraw n G u d ds)
    else .ok (some w)

/-- What the `else` branch of the `while` loop does, or nothing after `break` (`networks.py:108`). -/
def nxReplace (G : List (Nat × Nat)) (u v : Nat) : Option Nat → Except Err (List (Nat × Nat))
  | none => .ok G
  | some w => (nxRemove G u v).map (fun H => nxAdd H u w)

/-- The body of the second loop for the pair `(u, v)` (`networks.py:108`).  `luck` is what the random generator yields: `none` if
`seed.random() < p` is false, otherwise the first draw of a node and the next ones. -/
def nxRewire (n : Nat) (luck : Option (Nat × List Nat)) (G : List (Nat × Nat)) (u v : Nat) : Except Err (List (Nat × Nat)) :=
  match luck with
  | none => .ok G
  | some (w, ds) => (nxDraw n G u w ds).bind (nxReplace G u v)

/-- The second loop (`networks.py:108`): the luck of each pair is a parameter. -/
def nxRewireAll (n : Nat) (luck : Nat × Nat → Option (Nat × List Nat)) : List (Nat × Nat) → List (Nat × Nat) → Except Err (List (Nat × Nat))
  | [], G => .ok G
  | e :: es, G => (nxRewire n (luck e) G e.1 e.2).bind (nxRewireAll n luck es)

/-- The edges of `nx.complete_graph(n)` (`networks.py:108`). -/
def nxComplete (n : Nat) : List (Nat × Nat) :=
  (List.range n).flatMap (fun u => ((List.range n).filter (fun v => decide (u < v))).map (fun v => (u, v)))

/-- `nx.watts_strogatz_graph(n, k, p, seed)` (`networks.py:108`): the edges. -/
def nxWattsStrogatz (n k : Nat) (luck : Nat × Nat → Option (Nat × List Nat)) : Except Err (List (Nat × Nat)) :=
  if n < k then .error (.exception "k>n, choose smaller k or larger n")
  else if k = n then .ok (nxComplete n)
  else nxRewireAll n luck (nxPairs n k) (nxRing n k)

/-- `nx.adjacency_matrix(G).todense().tolist()` (`networks.py:109`) of a graph with `n` nodes; raises if there are none. -/
def nxMatrix (n : Nat) (G : List (Nat × Nat)) : Except Err (List (List Int)) :=
  if n = 0 then .error (.exception "Graph has no nodes or edges")
  else .ok ((List.range n).map (fun i => (List.range n).map (fun j => if nxHas G i j then 1 else 0)))

/-- Number of nodes of the graph: if `k < 2` and `k < n` no edge is added, and nodes are only added with edges (`networks.py:108`). -/
def nxSize (n k : Nat) : Nat := if k < 2 ∧ k ≠ n then 0 else n

/-- `watts_strogatz_graph(n, k, p, seed)` (`networks.py:94-110`). -/
def wattsStrogatzGraph (n k : Nat) (luck : Nat × Nat → Option (Nat × List Nat)) : Except Err (Net Nat Int) :=
  ((nxWattsStrogatz n k luck).bind (nxMatrix (nxSize n k))).map fromAdjacencyMatrix

end Verif
