import Verif.Model.PlotData
import Verif.Model.Utils
/-! # Model of the pictures of `plot_activities`, `plot_grid`, `plot_grid_multiple`, `animate_activities`, `animate_plot1D`,
`plot_network` and `animate_network` (`utils.py`)

What is handed to matplotlib and NetworkX: the image, the positions of the annotations, the ticks and lines of the grid, the graph and
the layout.  Colours of images, sizes and files are not modelled. -/

namespace Verif

/-- `np.arange(start, stop, 1)` (`utils.py:58-59, 98-99, 103-104`) with exact numbers: `ceil(stop - start)` values from `start` on. -/
def npArange (start stop : Rat) : List Rat := (List.range (stop - start).ceil.toNat).map (fun (k : Nat) => start + (k : Rat))

section
variable {L V X : Type}

/-- The first argument of `plot_activities` and `animate_activities` (`utils.py:16, 78`): a list of states, of which only the
activities count, or a list of rows. -/
inductive Plottable (L V : Type) where
  | states (l : List (Option (Dict L V)))
  | rows (l : List (List V))

/-- `len(trajectory_or_activities)` (`utils.py:18, 81`). -/
def Plottable.length : Plottable L V → Nat
  | .states l => l.length
  | .rows l => l.length

/-- The rows (`utils.py:18-24, 81-87`). -/
def Plottable.toRows [DecidableEq L] (le : L → L → Bool) (p : Plottable L V) : Except Err (List (List V)) :=
  if p.length = 0 then .error (.exception "there are no activities")
  else match p with
    | .states l => .ok (activitiesOverTime le l)
    | .rows l => .ok l

/-- `np.array(activities).reshape((len(activities), shape[0], shape[1]))[slice]` (`utils.py:45, 73`), for a `shape` of natural
numbers and an integer `slice`. -/
def gridOf (rows : List (List V)) (shape : List Nat) (slice : Int) : Except Err (List (List V)) :=
  match shape with
  | r :: c :: _ => if rows.all (fun row => decide (row.length = r * c)) then pyGet (rows.map (animationGrid r c)) slice
    else .error .valueError
  | _ => .error .indexError

/-- What `plot_grid` draws (`utils.py:48-60`): the image, the annotations with their positions, and the ticks of the grid. -/
structure Picture (V X : Type) where
  image : List (List V)
  texts : List (Nat × Nat × X)
  ticks : Option (List Rat × List Rat)

/-- The annotations (`utils.py:50-54`): `x`, `y`, text. -/
def annotationTexts (ann : Option (List (List X))) : List (Nat × Nat × X) :=
  match ann with
  | none => []
  | some l => l.zipIdx.flatMap (fun p => p.1.zipIdx.map (fun q => (q.2, p.2, q.1)))

/-- The ticks (`utils.py:56-59`); `activities[0]` raises `IndexError` if there is no row. -/
def gridTicks (image : List (List V)) (showGrid : Bool) : Except Err (Option (List Rat × List Rat)) :=
  if showGrid then match image with
    | [] => .error .indexError
    | row :: _ => .ok (some (npArange (-1 / 2) row.length, npArange (-1 / 2) image.length))
  else .ok none

/-- The part of `plot_grid` after the choice of the slice (`utils.py:46-59`). -/
def drawGrid (image : List (List V)) (ann : Option (List (List X))) (showGrid : Bool) : Except Err (Picture V X) :=
  match gridTicks image showGrid with
  | .error e => .error e
  | .ok t => .ok ⟨image, annotationTexts ann, t⟩

/-- `plot_grid` (`utils.py:42-62`) of rows of numbers. -/
def plotGrid (rows : List (List V)) (shape : Option (List Nat)) (slice : Int) (ann : Option (List (List X)))
    (showGrid : Bool) : Except Err (Picture V X) :=
  match shape with
  | none => drawGrid rows ann showGrid
  | some s => match gridOf rows s slice with
    | .error e => .error e
    | .ok image => drawGrid image ann showGrid

/-- The second reshape, in `plot_grid` (`utils.py:45`) after that of `_reshape_for_animation` (called in `utils.py:26-27`): the array has three dimensions already, and a
reshape to the shape it has changes nothing. -/
def frameOf (frames : List (List (List V))) (shape : List Nat) (slice : Int) : Except Err (List (List V)) :=
  match shape with
  | _ :: _ :: _ => pyGet frames slice
  | _ => .error .indexError

/-- `plot_activities` (`utils.py:16-27`): first `_reshape_for_animation`, then `plot_grid`. -/
def plotActivities [DecidableEq L] (zero : V) (le : L → L → Bool) (p : Plottable L V) (shape : Option (List Nat)) (slice : Int)
    (ann : Option (List (List X))) (showGrid : Bool) : Except Err (Picture V X) :=
  match p.toRows le with
  | .error e => .error e
  | .ok rows => match shape with
    | none => drawGrid rows ann showGrid
    | some s => match reshapeForAnimation zero rows s with
      | .error e => .error e
      | .ok frames => match frameOf frames s slice with
        | .error e => .error e
        | .ok image => drawGrid image ann showGrid

/-- The image of one automaton in `plot_grid_multiple` (`utils.py:71-74`). -/
def figureImage (rows : List (List V)) (shape : Option (List Nat)) (slice : Int) : Except Err (List (List V)) :=
  match shape with
  | none => .ok rows
  | some s => gridOf rows s slice

/-- One figure of `plot_grid_multiple` (`utils.py:67-74`): its title and its image. -/
def figureOf (shape : Option (List Nat)) (slice : Int) (titles : Option (List X)) (p : List (List V) × Nat) :
    Except Err (Option X × List (List V)) :=
  match titles with
  | none => match figureImage p.1 shape slice with
    | .error e => .error e
    | .ok image => .ok (none, image)
  | some ts => match pyGet ts p.2 with
    | .error e => .error e
    | .ok t => match figureImage p.1 shape slice with
      | .error e => .error e
      | .ok image => .ok (some t, image)

/-- `plot_grid_multiple` (`utils.py:65-75`): one figure per automaton. -/
def plotGridMultiple (cas : List (List (List V))) (shape : Option (List Nat)) (slice : Int) (titles : Option (List X)) :
    Except Err (List (Option X × List (List V))) :=
  cas.zipIdx.mapM (figureOf shape slice titles)

/-- The lines of the grid of an animation (`utils.py:103-106`): all vertical lines, then all horizontal ones, each by its two end
points.  `activities[0]` and `activities[0][0]` raise `IndexError` when there is no frame or no row. -/
def gridLines (frames : List (List (List V))) : Except Err (List ((Rat × Rat) × (Rat × Rat))) :=
  match frames with
  | [] => .error .indexError
  | frame :: _ => match frame with
    | [] => .error .indexError
    | row :: _ =>
      let vertical := npArange (-1 / 2) row.length
      let horizontal := npArange (-1 / 2) frame.length
      match vertical.getLast?, horizontal.getLast? with
      | some vl, some hl => .ok (vertical.map (fun x => ((x, -1 / 2), (x, hl))) ++ horizontal.map (fun y => ((-1 / 2, y), (vl, y))))
      | _, _ => .error .indexError

/-- `animate_activities` (`utils.py:78-106`) up to the first frame: the frames and the lines of the grid.  Without a shape the rows of
numbers have no second dimension: `len` of a number raises `TypeError`. -/
def animateActivities [DecidableEq L] (zero : V) (le : L → L → Bool) (p : Plottable L V) (shape : Option (List Nat)) :
    Except Err (List (List (List V)) × List ((Rat × Rat) × (Rat × Rat))) :=
  match p.toRows le with
  | .error e => .error e
  | .ok rows => match shape with
    | none => match rows with
      | [] => .error .indexError
      | row :: _ => match row with
        | [] => .error .indexError
        | _ :: _ => .error .typeError
    | some s => match reshapeForAnimation zero rows s with
      | .error e => .error e
      | .ok frames => match gridLines frames with
        | .error e => .error e
        | .ok ls => .ok (frames, ls)

/-- `animate_plot1D` (`utils.py:130-139`): the first line and the frames; `y[0]` raises `IndexError` when there is nothing to show. -/
def animatePlot1D [DecidableEq L] (le : L → L → Bool) (x : List X) (y : Plottable L V) :
    Except Err ((List X × List V) × List (List X × List V)) :=
  if y.length = 0 then .error .indexError
  else
    let rows := match y with
      | .states l => activitiesOverTime le l
      | .rows l => l
    match rows with
    | [] => .error .indexError
    | r :: rs => .ok ((x, r), (r :: rs).map (fun a => (x, a)))

end

/-! ## Networks -/

section
variable {L A P C : Type} [DecidableEq L]

/-- A layout (`utils.py:162, 175`): the name of an algorithm, or positions of the nodes. -/
inductive Layout (L P : Type) where
  | name (s : String)
  | positions (d : Dict L P)

/-- The functions of NetworkX that draw (`utils.py:165-169, 199-207`). -/
inductive DrawWith (L P : Type) where
  | shell | spring | planar | kamadaKawai
  | positions (d : Dict L P)

/-- The choice of `plot_network` (`utils.py:164-171`). -/
def plotLayout : Layout L P → Except Err (DrawWith L P)
  | .name s =>
    if s = "shell" then .ok .shell
    else if s = "spring" then .ok .spring
    else .error (.exception ("unsupported layout: " ++ s))
  | .positions d => .ok (.positions d)

/-- `plot_network` (`utils.py:162-172`): the graph and how it is drawn. -/
def plotNetwork (n : Net L A) (layout : Layout L P) : Except Err (NX L A × DrawWith L P) :=
  match plotLayout layout with
  | .error e => .error e
  | .ok d => .ok (n.toNetworkx, d)

/-- The choice of `animate_network` (`utils.py:198-209`). -/
def animateLayout : Layout L P → Except Err (DrawWith L P)
  | .name s =>
    if s = "shell" then .ok .shell
    else if s = "spring" then .ok .spring
    else if s = "planar" then .ok .planar
    else if s = "kamada-kawai" then .ok .kamadaKawai
    else .error (.exception ("unsupported layout: " ++ s))
  | .positions d => .ok (.positions d)

/-- The graph of a frame (`utils.py:190-194`): nodes and edges without their attributes. -/
def frameGraph (n : Net L A) : NX L A :=
  n.edges.foldl (fun G e => G.addEdge e.1 e.2.1 []) (n.nodes.foldl (fun G p => G.addNode p.1 []) NX.empty)

/-- The layout argument of `animate_network` (`utils.py:196`): one layout, or a list or tuple with one for every frame. -/
inductive LayoutArg (L P : Type) where
  | one (l : Layout L P)
  | perFrame (ls : List (Layout L P))

/-- The colour argument of `animate_network` (`utils.py:187`): one value, or a dict with one for every frame. -/
inductive ColorArg (C : Type) where
  | one (c : C)
  | perFrame (d : Dict Nat C)

/-- What one frame shows (`utils.py:184-209`). -/
structure NetFrame (L A P C : Type) where
  title : Option Nat
  color : C
  graph : NX L A
  drawWith : DrawWith L P

/-- `node_color[i] if type(node_color) == dict else node_color` (`utils.py:187`). -/
def colorAt (color : ColorArg C) (i : Nat) : Except Err C :=
  match color with
  | .one c => .ok c
  | .perFrame d => match d.get? i with
    | some c => .ok c
    | none => .error .keyError

/-- `layout[i] if type(layout) == list or type(layout) == tuple else layout` (`utils.py:196`). -/
def layoutAt (layout : LayoutArg L P) (i : Nat) : Except Err (Layout L P) :=
  match layout with
  | .one l => .ok l
  | .perFrame ls => pyGet ls i

/-- `update` (`utils.py:179-209`) for frame `i`. -/
def netFrame (layout : LayoutArg L P) (color : ColorArg C) (withTimestep : Bool) (i : Nat) (n : Net L A) :
    Except Err (NetFrame L A P C) :=
  match colorAt color i with
  | .error e => .error e
  | .ok c => match layoutAt layout i with
    | .error e => .error e
    | .ok l => match animateLayout l with
      | .error e => .error e
      | .ok d => .ok ⟨if withTimestep then some (i + 1) else none, c, frameGraph n, d⟩

/-- The frames of `animate_network` (`utils.py:211`): one per state, as `networks` of the states, drawn when the animation reaches
them. -/
def animateNetwork (networks : List (Net L A)) (layout : LayoutArg L P) (color : ColorArg C) (withTimestep : Bool) :
    List (Except Err (NetFrame L A P C)) :=
  networks.zipIdx.map (fun p => netFrame layout color withTimestep p.2 p.1)

end
end Verif
