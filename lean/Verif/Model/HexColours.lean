import Verif.Model.Hexplot
import Verif.Model.Plot1D
/-! # Model of the colours of `plot_hex_grid` and `animate_hex`

Values are exact rational numbers.  A colour is the number that matplotlib looks up in the colour map: numbers below 0 get the first colour of
the map, numbers above 1 the last.  The colour maps themselves are not modelled. -/

namespace Verif

/-- `min(vals)` (`hexplot.py:27`); `ValueError` for an empty list. -/
def smallest : List Rat → Except Err Rat
  | [] => .error .valueError
  | v :: vs => .ok (vs.foldl min v)

/-- `max(vals)` (`hexplot.py:28`); `ValueError` for an empty list. -/
def greatest : List Rat → Except Err Rat
  | [] => .error .valueError
  | v :: vs => .ok (vs.foldl max v)

/-- `vmin` and `vmax` in `_get_scaled_colormap` (`hexplot.py:26-28`). -/
def colourLimits (vals : List Rat) (vmin vmax : Option Rat) : Except Err (Rat × Rat) :=
  match (match vmin with | none => smallest vals | some v => .ok v) with
  | .error e => .error e
  | .ok lo => match (match vmax with | none => greatest vals | some v => .ok v) with
    | .error e => .error e
    | .ok hi => .ok (lo, hi)

/-- matplotlib's `Normalize(vmin, vmax)` on one value (`hexplot.py:30`, `m.to_rgba`, `hexplot.py:54`), from its documentation: 0 if both limits
are equal, `ValueError` if they are in the wrong order. -/
def shade (lo hi v : Rat) : Except Err Rat :=
  if lo = hi then .ok 0 else if hi < lo then .error .valueError else .ok ((v - lo) / (hi - lo))

/-- The values of the triples, `[t[2] for t in triples]` (`hexplot.py:26, 34-38`). -/
def hexValues (grid : List (List Rat)) : List Rat := (hexTriples grid).map (fun t => t.2.2)

/-- The colours of the hexagons that `plot_hex_grid` draws, in the order in which they are drawn (`hexplot.py:41-55`). -/
def hexColours (activities : List (List Rat)) (shape : Option (Nat × Nat)) (slice : Int) (vmin vmax : Option Rat) : Except Err (List Rat) :=
  match hexGrid activities shape slice with
  | .error e => .error e
  | .ok grid => match colourLimits (hexValues grid) vmin vmax with
    | .error e => .error e
    | .ok (lo, hi) => (hexValues grid).mapM (shade lo hi)

/-- The colours of the hexagons in a frame of `animate_hex` with a shape (`hexplot.py:62-91`) after call number `k` of `update`.
`_get_scaled_colormap` is called with the first state (`hexplot.py:67, 71`), but only its colour map reaches the `PatchCollection`
(`hexplot.py:79`): the limits are those of the first array that is drawn (matplotlib scales once, with the first array).  Which call of
`update` this is depends on the version of matplotlib and on `save`; it is the parameter `first`. -/
def hexAnimation (activities : List (List Rat)) (rows cols : Nat) (vmin vmax : Option Rat) (first k : Nat) : Except Err (List Rat) :=
  if activities.all (fun row => decide (row.length = rows * cols)) then
    match pyGet activities 0 with
    | .error e => .error e
    | .ok start => match colourLimits (hexValues (reshapeRow rows cols start)) vmin vmax with
      | .error e => .error e
      | .ok _ => match shownFrame activities first, shownFrame activities k with
        | .ok (scale, _), .ok (state, _) =>
          match smallest (hexValues (reshapeRow rows cols scale)), greatest (hexValues (reshapeRow rows cols scale)) with
          | .ok lo, .ok hi => (hexValues (reshapeRow rows cols state)).mapM (shade lo hi)
          | _, _ => .ok []
        | .error e, _ => .error e
        | _, .error e => .error e
  else .error .valueError

end Verif
