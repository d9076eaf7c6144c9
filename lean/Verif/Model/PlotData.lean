import Verif.Model.Network
import Verif.Model.NetworkX
import Verif.Py.Index
/-! # Model of the data that the plotting functions of `utils.py` and `vis/vis_utils.py` compute

The calls of matplotlib are not modelled, only the data handed to them. -/

namespace Verif
section
variable {L A V X : Type} [DecidableEq L]

/-! ## `plot_degree_distribution` -/

/-- The degree that is counted (`utils.py:430-435`). -/
def degreeOf (inD outD : Bool) (n : Net L A) (x : L) : Except Err Int :=
  if inD then n.inDegree x else if outD then n.outDegree x else n.degree x

/-- One round of the counting loop (`utils.py:430-439`). -/
def countDegree (inD outD : Bool) (n : Net L A) (d : Dict Int Nat) (x : L) : Except Err (Dict Int Nat) :=
  match degreeOf inD outD n x with
  | .error e => .error e
  | .ok k => .ok ((if d.has k then d else d.set k 0).modify k (· + 1))

/-- The bars of `plot_degree_distribution` (`utils.py:428-442`): positions and heights.  `max` of no degrees raises
`ValueError`. -/
def degreeBars (inD outD : Bool) (n : Net L A) : Except Err (List Int × List Nat) :=
  match n.labels.foldlM (countDegree inD outD n) [] with
  | .error e => .error e
  | .ok d => match d.keys with
    | [] => .error .valueError
    | k :: ks =>
      let xs := (List.range (ks.foldl max k).toNat).map (fun (i : Nat) => (i : Int) + 1)
      .ok (xs, xs.map (fun i => if d.has i then (d.get? i).getD 0 else 0))

/-! ## `poincare_plot` and `bifurcation_plot` -/

/-- `a[-k:]` (`utils.py:349-350, 383`): the last `k` items for a positive `k`; for `k = 0` all; for a negative `k` without the first
`-k`. -/
def lastSlice (a : List V) (k : Int) : List V :=
  if k > 0 then a.drop (a.length - k.toNat) else a.drop (-k).toNat

/-- One round of the loop over `t` (`utils.py:349-350`). -/
def poincareStep (a : List V) (timesteps : Int) (ps : List (V × V)) (t : Nat) : Except Err (List (V × V)) :=
  match pyGet (lastSlice a timesteps) t with
  | .error e => .error e
  | .ok x => match pyGet (lastSlice a timesteps) (t + 1) with
    | .error e => .error e
    | .ok y => .ok (ps ++ [(x, y)])

/-- The points of one series of `poincare_plot` (`utils.py:346-350`). -/
def poincarePoints (a : List V) (timesteps : Int) : Except Err (List (V × V)) :=
  (List.range (timesteps - 1).toNat).foldlM (poincareStep a timesteps) []

/-- Without repetitions, by first occurrence; auxiliary to `np.unique` (`utils.py:383`). -/
def distinct [DecidableEq V] : List V → List V
  | [] => []
  | v :: l => v :: (distinct l).filter (fun w => decide (w ≠ v))

/-- `np.unique` (`utils.py:383`): the different values, sorted; for trajectories of numbers (NumPy flattens nested ones first). -/
def npUnique [DecidableEq V] (le : V → V → Bool) (l : List V) : List V := (distinct l).mergeSort le

/-- The points of `bifurcation_plot` (`utils.py:381-385`). -/
def bifurcationPoints [DecidableEq V] (le : V → V → Bool) (xs : List X) (trajectories : List (List V)) (timesteps : Int) :
    List (X × V) :=
  (xs.zip (trajectories.map (fun t => npUnique le (lastSlice t timesteps)))).flatMap (fun p => p.2.map (fun y => (p.1, y)))

/-! ## `_reshape_for_animation` -/

/-- One frame for a one-dimensional shape (`utils.py:150-153`): the rows up to row `i`, then rows of zeros as long as the first
row. -/
def animationFrame (zero : V) (activities : List (List V)) (width i : Nat) : List (List V) :=
  let shown := activities.take (i + 1)
  shown ++ List.replicate (activities.length - shown.length) (List.replicate width zero)

/-- A row of a two-dimensional animation (`np.reshape`, `utils.py:157`). -/
def animationGrid (rows cols : Nat) (row : List V) : List (List V) :=
  (List.range rows).map (fun a => (row.drop (a * cols)).take cols)

/-- `_reshape_for_animation` (`utils.py:145-159`), for activities of equal length and a shape of natural numbers
(NumPy also takes one `-1`).  `activities[0]` raises `IndexError` when there are
no activities; a failing `assert` and a failing `reshape` raise. -/
def reshapeForAnimation (zero : V) (activities : List (List V)) (shape : List Nat) : Except Err (List (List (List V))) :=
  match shape with
  | [w] => match activities with
    | [] => .error .indexError
    | a :: _ => if w = a.length then .ok ((List.range activities.length).map (animationFrame zero activities a.length))
      else .error .assertion
  | [r, c] => if activities.all (fun row => decide (row.length = r * c)) then .ok (activities.map (animationGrid r c))
    else .error .valueError
  | _ => .error (.exception "shape must be a tuple of length 1 or 2")

end

/-! ## `vis/vis_utils.py` -/

/-- `lattice_pos` (`vis/vis_utils.py:6-17`). -/
def latticePos (nx ny : Nat) : Dict Nat (Nat × Nat) :=
  (((List.range nx).flatMap (fun i => (List.range ny).map (fun j => (i, j)))).zipIdx).map (fun p => (p.2, p.1))

section
variable {L A : Type} [DecidableEq L]

/-- The rounds for one relation (`vis/vis_utils.py:23-28`). -/
def relationToNx (G : NX L A) : List L → NX L A
  | [] => G
  | [u] => G.addNode u []
  | u :: v :: r => relationToNx ((G.addNode u []).addEdge u v []) (v :: r)

/-- `configuration_to_nx` (`vis/vis_utils.py:20-29`). -/
def configurationToNx (config : List (List L)) : NX L A := config.foldl relationToNx NX.empty

/-- One round of the loop over the edges in `get_html` (`vis/vis_utils.py:49-55`): the counter of self-references and the entries made so
far; an entry is source, target and, for a self-reference, its size. -/
def htmlEdge (s : Dict (L × L) Nat × List (L × L × Option Nat)) (e : L × L) : Dict (L × L) Nat × List (L × L × Option Nat) :=
  if e.1 = e.2 then
    let refs := (if s.1.has (e.1, e.2) then s.1 else s.1.set (e.1, e.2) 0).modify (e.1, e.2) (· + 1)
    (refs, s.2 ++ [(e.1, e.2, some (15 + ((refs.get? (e.1, e.2)).getD 0) * 5))])
  else (s.1, s.2 ++ [(e.1, e.2, none)])

/-- The entries for the edges in `get_html` (`vis/vis_utils.py:46-55`), before they are written as text. -/
def htmlEdges (edges : List (L × L)) : List (L × L × Option Nat) := (edges.foldl htmlEdge ([], [])).2

end
end Verif
