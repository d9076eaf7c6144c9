import Verif.Model.Matrix
import Verif.Model.Evolution
/-! # Model of `hopfield_tank_tsp_net.py`

Numbers are the elements of a commutative ring `R` (the floats are taken to be exact); `math.sqrt` and `_V` (which uses
`np.tanh`, `hopfield_tank_tsp_net.py:166-167`) are parameters. -/

namespace Verif
open Lean.Grind

/-- A point `(x, y)` (`hopfield_tank_tsp_net.py:14`). -/
abbrev Pt (R : Type) := R × R

section
variable {R : Type} [CommRing R]

/-- `math.sqrt((to[0] - from[0]) ** 2 + (to[1] - from[1]) ** 2)` (`hopfield_tank_tsp_net.py:50, 98`). -/
def ptDist (sqrt : R → R) (from' to' : Pt R) : R := sqrt ((to'.1 - from'.1) ^ 2 + (to'.2 - from'.2) ^ 2)

/-- `HopfieldTankTSPNet.get_distances` (`hopfield_tank_tsp_net.py:37-54`): the loops over `i < len - 1` and
`i + 1 ≤ j < len`; `points[i]` is in range. -/
def tspDistances (sqrt : R → R) (points : List (Pt R)) : List (Nat × Nat × R) :=
  (List.range (points.length - 1)).flatMap (fun i =>
    (List.range' (i + 1) (points.length - (i + 1))).map (fun j =>
      (i, j, ptDist sqrt (points.getD i (0, 0)) (points.getD j (0, 0)))))

/-- The body of the loop of `_get_distances_map` (`hopfield_tank_tsp_net.py:124-128`). -/
def distStep (m : Dict (Nat × Nat) R) (t : Nat × Nat × R) : Dict (Nat × Nat) R :=
  (((m.set (t.1, t.2.1) t.2.2).set (t.2.1, t.1) t.2.2).set (t.1, t.1) 0).set (t.2.1, t.2.1) 0

/-- `_get_distances_map` (`hopfield_tank_tsp_net.py:113-129`). -/
def distancesMap (ds : List (Nat × Nat × R)) : Dict (Nat × Nat) R := ds.foldl distStep []

end

/-- `_get_node_label_map` (`hopfield_tank_tsp_net.py:131-150`): the loops over the points and the positions, with the
counter `current_node`. -/
def nodeLabelMap (n : Nat) : Dict Nat (Nat × Nat) :=
  ((List.range n).foldl (fun (s : Dict Nat (Nat × Nat) × Nat) (p : Nat) =>
    (List.range n).foldl (fun (s : Dict Nat (Nat × Nat) × Nat) (c : Nat) => (s.1.set s.2 (p, c), s.2 + 1)) s) ([], 0)).1

/-- `_get_coordinate_map` (`hopfield_tank_tsp_net.py:152-156`). -/
def coordinateMap (m : Dict Nat (Nat × Nat)) : Dict (Nat × Nat) Nat := m.foldl (fun c p => c.set p.2 p.1) []

/-- `_get_adjacency_matrix` (`hopfield_tank_tsp_net.py:158-160`). -/
def tspMatrix (n : Nat) : List (List Int) := (List.range (n * n)).map (fun _ => (List.range (n * n)).map (fun _ => 1))

/-- `np.argmax(row)` (`hopfield_tank_tsp_net.py:84`): the position of the first maximum; raises `ValueError` on an empty
row.  `le` is the order of the entries, which are not NaN. -/
def argmax {E : Type} (le : E → E → Bool) (row : List E) : Except Err Nat :=
  match row with
  | [] => .error .valueError
  | v :: vs => .ok (vs.foldl (fun (s : Nat × E × Nat) x => if le x s.2.1 then (s.1, s.2.1, s.2.2 + 1) else (s.2.2, x, s.2.2 + 1))
      (0, v, 1)).1

/-- The body of the first loop of `get_tour_graph` (`hopfield_tank_tsp_net.py:83-87`). -/
def claimStep {E : Type} (le : E → E → Bool) (d : Dict Nat Nat) (row : List E × Nat) : Except Err (Dict Nat Nat) :=
  match argmax le row.1 with
  | .error e => .error e
  | .ok k => if d.has k then .error (.exception "a point has already claimed a position in the tour")
    else .ok (d.set k row.2)

/-- The first loop of `get_tour_graph` (`hopfield_tank_tsp_net.py:81-87`). -/
def tourPositions {E : Type} (le : E → E → Bool) (matrix : List (List E)) : Except Err (Dict Nat Nat) :=
  matrix.zipIdx.foldlM (claimStep le) []

/-- The graph, as the list of the nodes and the list of the arguments of the `G.add_edge` calls, and the tour length
returned by `get_tour_graph` (`hopfield_tank_tsp_net.py:77, 94, 102`).  `nx.Graph` is undirected and ignores repeated edges; `pos` is left out. -/
structure TourGraph (R : Type) where
  nodes : List Nat
  edges : List (Nat × Nat)
  length : R
  deriving DecidableEq

/-- The body of the second loop of `get_tour_graph` (`hopfield_tank_tsp_net.py:91-98`): the edge and its length. -/
def tourEdge {R : Type} [CommRing R] (sqrt : R → R) (points : List (Pt R)) (d : Dict Nat Nat) (kp : Nat × Nat) :
    Except Err ((Nat × Nat) × R) :=
  match d.get ((kp.1 + 1) % points.length) with
  | .error e => .error e
  | .ok q => match points[kp.2]?, points[q]? with
    | some a, some b => .ok ((kp.2, q), ptDist sqrt a b)
    | _, _ => .error .indexError

/-- `get_tour_graph` (`hopfield_tank_tsp_net.py:62-102`).  The number in the text of the exception is left out. -/
def tourGraph {R E : Type} [CommRing R] (sqrt : R → R) (le : E → E → Bool) (points : List (Pt R)) (matrix : List (List E)) :
    Except Err (TourGraph R) :=
  if points.length ≠ matrix.length then .error .assertion
  else match matrix with
    | [] => .error .indexError
    | row0 :: _ =>
      if points.length ≠ row0.length then .error .assertion
      else match tourPositions le matrix with
        | .error e => .error e
        | .ok d => match d.mapM (tourEdge sqrt points d) with
          | .error e => .error e
          | .ok es => .ok ⟨List.range points.length, es.map Prod.fst, (es.map Prod.snd).foldl (· + ·) 0⟩

section
variable {R I : Type} [CommRing R]

/-- The attributes of a `HopfieldTankTSPNet` used by the rule (`hopfield_tank_tsp_net.py:24-35`). -/
structure TSPNet (R : Type) where
  size : Nat
  dt : R
  A : R
  B : R
  C : R
  D : R
  n : R
  distances : Dict (Nat × Nat) R
  labels : Dict Nat (Nat × Nat)
  coords : Dict (Nat × Nat) Nat

/-- `HopfieldTankTSPNet.__init__` (`hopfield_tank_tsp_net.py:12-35`). -/
def tspNet (sqrt : R → R) (points : List (Pt R)) (dt A B C D n : R) : TSPNet R :=
  ⟨points.length, dt, A, B, C, D, n, distancesMap (tspDistances sqrt points), nodeLabelMap points.length,
    coordinateMap (nodeLabelMap points.length)⟩

/-- `_get_opposite_neighbour_activity` (`hopfield_tank_tsp_net.py:169-173`). -/
def oppositeActivity (acts : List R) (nbrs : List Nat) (label : Nat) : Except Err R :=
  match nbrs.idxOf? label with
  | none => .error (.exception "could not find the opposite neighbour index")
  | some i => match acts[i]? with
    | none => .error .indexError
    | some v => .ok v

/-- The four sums of the rule (`hopfield_tank_tsp_net.py:179-182`). -/
structure TSPSums (R : Type) where
  a : R
  b : R
  c : R
  d : R

/-- The body of the loop of `activity_rule` (`hopfield_tank_tsp_net.py:183-199`).  `(node_col - 1) % len(points)` is
Python's remainder. -/
def tspStep (V : R → R) (net : TSPNet R) (ctx : NodeCtx Nat Int R I) (row col : Nat) (s : TSPSums R) (ai : R × Nat) :
    Except Err (TSPSums R) :=
  match ctx.neighbours[ai.2]? with
  | none => .error .indexError
  | some y => match net.labels.get y with
    | .error e => .error e
    | .ok (yr, yc) =>
      let a := if yr = row ∧ yc ≠ col then s.a + V ai.1 else s.a
      let b := if yc = col ∧ yr ≠ row then s.b + V ai.1 else s.b
      let c := s.c + V ai.1
      if (yc : Int) = ((col : Int) - 1) % (net.size : Int) then
        match net.coords.get (yr, (col + 1) % net.size) with
        | .error e => .error e
        | .ok opp => match oppositeActivity ctx.neighbourActs ctx.neighbours opp with
          | .error e => .error e
          | .ok oa => match net.distances.get (yr, row) with
            | .error e => .error e
            | .ok dist => .ok ⟨a, b, c, s.d + dist * (V ai.1 + V oa)⟩
      else .ok ⟨a, b, c, s.d⟩

/-- `activity_rule` (`hopfield_tank_tsp_net.py:175-203`). -/
def tspRule (V : R → R) (net : TSPNet R) (ctx : NodeCtx Nat Int R I) : Except Err R :=
  match net.labels.get ctx.node with
  | .error e => .error e
  | .ok (row, col) => match ctx.neighbourActs.zipIdx.foldlM (tspStep V net ctx row col) ⟨0, 0, 0, 0⟩ with
    | .error e => .error e
    | .ok s => .ok (ctx.current + net.dt *
        (-ctx.current - net.A * s.a - net.B * s.b - net.C * (s.c - net.n) - net.D * s.d))

end
end Verif
