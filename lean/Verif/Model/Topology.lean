import Verif.Model.Matrix
import Verif.Model.State
/-! # Model of the topologies (`/repo/netomaton/topology/adjacency.py`, `/repo/netomaton/topology/networks.py`)

Sizes and radii are natural numbers: a negative `n` raises at the first test like `n = 0`, a negative `r` behaves like
an empty range; two negative dimensions in 2D (which numpy's `reshape` rejects) are not modelled.  The matrix entries
`0.` and `1.` are the integers 0 and 1. -/

namespace Verif

/-! ## 1D (`adjacency.py:4-30`) -/

/-- `adjacency_matrix[w][k] = 1.` (`adjacency.py:24, 26, 27, 81`); `w` comes from `enumerate`. -/
def setOne (M : List (List Int)) (p : Nat × Int) : Except Err (List (List Int)) :=
  match M[p.1]? with
  | none => .error .indexError
  | some row => match pySet row p.2 1 with
    | .error e => .error e
    | .ok row' => .ok (M.set p.1 row')

/-- `[[0. for j in range(n)] for i in range(n)]` (`adjacency.py:19, 53`). -/
def zeroMatrix (n : Nat) : List (List Int) := List.replicate n (List.replicate n 0)

/-- The assignments made for row `w` and column `c` (`adjacency.py:23-27`), as (row, index) pairs. -/
def caWrites (n r w c : Nat) : List (Nat × Int) :=
  if w = c then
    (w, (c : Int)) :: (List.range r).flatMap (fun (i : Nat) =>
      [(w, (c : Int) - (1 + (i : Int))), (w, ((c : Int) + (1 + (i : Int))) % (n : Int))])
  else []

/-- `adjacency.cellular_automaton` (`adjacency.py:4-30`). -/
def caAdjacency (n r : Nat) (boundary : String) : Except Err (List (List Int)) :=
  if n < 3 then .error (.exception "There must be at least 3 cells")
  else if boundary = "periodic" then
    ((List.range n).flatMap (fun w => (List.range n).flatMap (fun c => caWrites n r w c))).foldlM setOne (zeroMatrix n)
  else .error (.exception "unsupported boundary condition")

/-! ## 2D (`adjacency.py:33-91`) -/

/-- Arguments `a_i, b_i, a_o, b_o, radius, rownum` of a neighbourhood criterion (`adjacency.py:55-67`). -/
abbrev Criterion := Int → Int → Int → Int → Int → Nat → Bool

/-- `np.abs(a_i - a_o) + np.abs(b_i - b_o) <= radius` (`adjacency.py:56, 61`). -/
def vonNeumannCrit : Criterion := fun ai bi ao bo r _ =>
  decide (((ai - ao).natAbs : Int) + ((bi - bo).natAbs : Int) ≤ r)

/-- `np.abs(a_i - a_o) <= radius and np.abs(b_i - b_o) <= radius` (`adjacency.py:58`). -/
def mooreCrit : Criterion := fun ai bi ao bo r _ =>
  decide (((ai - ao).natAbs : Int) ≤ r) && decide (((bi - bo).natAbs : Int) ≤ r)

/-- `hex_crit` (`adjacency.py:60-66`). -/
def hexCrit : Criterion := fun ai bi ao bo r rownum =>
  vonNeumannCrit ai bi ao bo r rownum ||
    (if rownum % 2 = 0 then decide (bi - bo < r) else decide (bo - bi < r))

/-- Choice of the criterion (`adjacency.py:55-69`). -/
def criterion (neighbourhood : String) : Except Err Criterion :=
  if neighbourhood = "von Neumann" then .ok vonNeumannCrit
  else if neighbourhood = "Moore" then .ok mooreCrit
  else if neighbourhood = "Hex" then .ok hexCrit
  else .error (.exception "neighbourhood type not supported")

/-- `range(a - r, a + r + 1)` (`adjacency.py:89`). -/
def window (a r : Nat) : List Int := (List.range (2 * r + 1)).map (fun (k : Nat) => (a : Int) - (r : Int) + (k : Int))

/-- `_get_neighbourhood_points2d` (`adjacency.py:88-91`). -/
def neighbourhoodPoints (crit : Criterion) (a b r rownum : Nat) : List (Int × Int) :=
  (window a r).flatMap (fun x =>
    ((window b r).filter (fun y => crit x y (a : Int) (b : Int) (r : Int) rownum)).map (fun y => (x, y)))

/-- `np.array(range(n)).reshape((rows, cols)).tolist()` (`adjacency.py:71`). -/
def lattice2d (rows cols : Nat) : List (List Nat) :=
  (List.range rows).map (fun a => (List.range cols).map (fun b => a * cols + b))

/-- `point if point == -1 else point % size` (`adjacency.py:79-80`). -/
def wrapCoord (p : Int) (size : Nat) : Int := if p = -1 then p else p % (size : Int)

/-- The assignment made for one point (`adjacency.py:78-81`); `label` is `adjacency_row_num`. -/
def pointStep (rows cols label : Nat) (M : List (List Int)) (p : Int × Int) : Except Err (List (List Int)) :=
  match pyGet (lattice2d rows cols) (wrapCoord p.1 rows) with
  | .error e => .error e
  | .ok row => match pyGet row (wrapCoord p.2 cols) with
    | .error e => .error e
    | .ok v => setOne M (label, (v : Int))

/-- Body of the loop over the cells (`adjacency.py:76-81`); `rownum` is `a + 1` (`adjacency.py:72-74`). -/
def cellStep (crit : Criterion) (rows cols r : Nat) (M : List (List Int)) (c : Nat × Nat) :
    Except Err (List (List Int)) :=
  (neighbourhoodPoints crit c.1 c.2 r (c.1 + 1)).foldlM (pointStep rows cols (c.1 * cols + c.2)) M

/-- The cells in the order of the nested loops (`adjacency.py:73-75`). -/
def cells (rows cols : Nat) : List (Nat × Nat) :=
  (List.range rows).flatMap (fun a => (List.range cols).map (fun b => (a, b)))

/-- `adjacency.cellular_automaton2d` (`adjacency.py:33-85`). -/
def caAdjacency2d (rows cols r : Nat) (neighbourhood boundary : String) : Except Err (List (List Int)) :=
  if rows * cols < 9 then .error (.exception "There must be at least 9 cells")
  else if boundary = "periodic" then
    match criterion neighbourhood with
    | .error e => .error e
    | .ok crit => (cells rows cols).foldlM (cellStep crit rows cols r) (zeroMatrix (rows * cols))
  else .error (.exception "unsupported boundary condition")

/-! ## Networks (`networks.py`) -/

/-- `deque.rotate(k)` (`networks.py:24`): `k` steps to the right; a negative `k` goes to the left. -/
def rotateRight {α : Type} (l : List α) (k : Int) : List α :=
  if l.length = 0 then l
  else
    let s := l.length - (k % (l.length : Int)).toNat
    l.drop s ++ l.take s

/-- Insertion into an ascending list; auxiliary to `sorted` (`networks.py:20`). -/
def insertNat (x : Nat) : List Nat → List Nat
  | [] => [x]
  | y :: ys => if x ≤ y then x :: y :: ys else y :: insertNat x ys

/-- `sorted(nodes)` (`networks.py:20`); the result of sorting numbers does not depend on the algorithm. -/
def sortedNat : List Nat → List Nat
  | [] => []
  | x :: xs => insertNat x (sortedNat xs)

/-- `_shift_to_center` (`networks.py:8-25`) for a list; `arr.index(val)` looks in the unsorted list. -/
def shiftToCenter (nodes : List Nat) (node : Nat) : Except Err (List Nat) :=
  match nodes.idxOf? node with
  | none => .error .valueError
  | some i => .ok (rotateRight (sortedNat nodes) (((nodes.length / 2 : Nat) : Int) - (i : Int)))

/-- Entry of the rotation system for one node (`networks.py:32, 41`). -/
def centredEntry {A : Type} (net : Net Nat A) (x : Nat) : Except Err (Nat × List Nat) :=
  match net.inEdges x with
  | .error e => .error e
  | .ok d => match shiftToCenter d.keys x with
    | .error e => .error e
    | .ok l => .ok (x, l)

/-- `if ordered: network.rotation_system = {...}` (`networks.py:31-33, 40-42`). -/
def orderNetwork {A : Type} (net : Net Nat A) : Except Err (Net Nat A) :=
  match net.labels.mapM (centredEntry net) with
  | .error e => .error e
  | .ok rs => match Net.setRotation (Dict.ofPairs rs) net with
    | (.error e, _) => .error e
    | (.ok (), net') => .ok net'

/-- `topology.cellular_automaton` (`networks.py:28-34`); the argument `periodic` is not used by the code. -/
def cellularAutomaton (n r : Nat) (ordered : Bool) : Except Err (Net Nat Int) :=
  match caAdjacency n r "periodic" with
  | .error e => .error e
  | .ok M => if ordered then orderNetwork (fromAdjacencyMatrix M) else .ok (fromAdjacencyMatrix M)

/-- `topology.cellular_automaton2d` (`networks.py:37-43`). -/
def cellularAutomaton2d (rows cols r : Nat) (neighbourhood : String) (ordered : Bool) : Except Err (Net Nat Int) :=
  match caAdjacency2d rows cols r neighbourhood "periodic" with
  | .error e => .error e
  | .ok M => if ordered then orderNetwork (fromAdjacencyMatrix M) else .ok (fromAdjacencyMatrix M)

/-- `nx.adjacency_matrix(nx.complete_graph(n))` (`networks.py:156-157`): ones off the diagonal; networkx raises on the
graph without nodes. -/
def completeMatrix (n : Nat) : Except Err (List (List Int)) :=
  if n = 0 then .error (.exception "Graph has no nodes or edges")
  else .ok ((List.range n).map (fun i => (List.range n).map (fun j => if i = j then 0 else 1)))

/-- `topology.complete` (`networks.py:148-158`). -/
def completeNetwork (n : Nat) : Except Err (Net Nat Int) :=
  match completeMatrix n with
  | .error e => .error e
  | .ok M => .ok (fromAdjacencyMatrix M)

/-- `edge_attributes` of `bipartite` (`networks.py:113`). -/
abbrev EdgeAttrs (L A : Type) := Dict L (Dict L (Attr A))

/-- Attributes of one pair (`networks.py:139-143`); `none` as `edge_attributes` gives no attribute. -/
def pairAttrs {L A : Type} [DecidableEq L] (ea : Option (EdgeAttrs L A)) (u v : L) : Except Err (Attr A) :=
  match ea with
  | none => .ok []
  | some d => match d.get u with
    | .error e => .error e
    | .ok d' => d'.get v

/-- Body of the loops of `bipartite` (`networks.py:139-144`). -/
def bipartiteStep {L A : Type} [DecidableEq L] (ea : Option (EdgeAttrs L A)) (net : Net L A) (p : L × L) :
    Except Err (Net L A) :=
  match pairAttrs ea p.1 p.2 with
  | .error e => .error e
  | .ok at' => match Net.addEdgeBidir p.1 p.2 at' net with
    | (.error e, _) => .error e
    | (.ok (), net') => .ok net'

/-- `topology.bipartite` (`networks.py:113-145`). -/
def bipartite {L A : Type} [DecidableEq L] (us vs : List L) (ea : Option (EdgeAttrs L A)) : Except Err (Net L A) :=
  (us.flatMap (fun u => vs.map (fun v => (u, v)))).foldlM (bipartiteStep ea) Net.empty

/-- `topology.disconnected` of an int (`networks.py:79`, `state.py:15`). -/
def disconnectedN (A : Type) (n : Nat) : Net Nat A := Net.ofSize n

/-- `topology.disconnected` of a list (`networks.py:80-81`). -/
def disconnectedList {L A : Type} [DecidableEq L] (xs : List L) : Net L A :=
  Net.run Net.empty (xs.map (fun x => Net.Op.addNode x []))

end Verif
