import Verif.Py.Err
import Verif.Py.Index
/-! # Model of `plot1D`, of the frames of the animations and of the limits of `Turtle.animate`

Matplotlib itself is not modelled: `plot1D` becomes the list of the calls it makes on the axes (axis 0, and axis 1 for
`twinx`).  Numbers are exact rationals. -/

namespace Verif

/-! ## `plot1D` -/

/-- A value of an argument: `None`, a string or a number (`utils.py:231-256`). -/
inductive PVal where
  | none
  | str (s : String)
  | num (q : Rat)
  deriving DecidableEq, Repr

/-- An argument that may be a single value or a list (or tuple) of values (`utils.py:231-240`). -/
inductive PArg where
  | item (v : PVal)
  | seq (l : List PVal)
  deriving DecidableEq, Repr

/-- The argument `ylim` (`utils.py:244-245`): absent, a pair of numbers, or a list of pairs. -/
inductive PLim where
  | absent
  | pair (a b : Rat)
  | seq (l : List (Rat × Rat))
  deriving DecidableEq, Repr

/-- The argument `legend` (`utils.py:251-252`): absent, a dict (its entries), or a list of dicts. -/
inductive PLegend where
  | absent
  | dict (d : List (String × PVal))
  | seq (l : List (List (String × PVal)))
  deriving DecidableEq, Repr

/-- An item of `y`: a number, or a list or array of numbers (`utils.py:228-229, 271`). -/
inductive PItem where
  | num (q : Rat)
  | series (l : List Rat)
  deriving DecidableEq, Repr

/-- The arguments of `plot1D` after `x` and `y` (`utils.py:221-222`); `tight` says whether `tight_layout` is a non-empty
dict. -/
structure PlotOpts where
  color : PArg := .item .none
  label : PArg := .item .none
  xlabel : PVal := .none
  ylabel : PArg := .item .none
  xlim : Option (Rat × Rat) := none
  ylim : PLim := .absent
  twinx : Bool := false
  legend : PLegend := .absent
  tight : Bool := false
  title : PVal := .none
  deriving DecidableEq, Repr

/-- A call of matplotlib by `plot1D` (`utils.py:290-313`).  `ylim axis bottom top`: `set_ylim` with one number sets the
lower limit only, with a pair both (`utils.py:301`). -/
inductive DrawCall where
  | plot (axis : Nat) (xs ys : List Rat) (label color : Option PVal)
  | xlabel (axis : Nat) (v : PVal)
  | ylabel (axis : Nat) (v : PVal) (color : Option PVal)
  | xlim (axis : Nat) (a b : Rat)
  | ylim (axis : Nat) (bottom : Rat) (top : Option Rat)
  | legend (axis : Nat) (d : List (String × PVal))
  | tight
  | title (v : PVal)
  deriving DecidableEq, Repr

/-- `bool(v)` (`utils.py:291, 310`). -/
def PVal.truthy : PVal → Bool
  | .none => false
  | .str s => s ≠ ""
  | .num q => q ≠ 0

/-- `bool(argument)` (`utils.py:286, 288, 293, 295`). -/
def PArg.truthy : PArg → Bool
  | .item v => v.truthy
  | .seq l => !l.isEmpty

/-- The `AttributeError` of `collections.Sequence`, which Python has not had since version 3.10 (`utils.py:276`). -/
def noSequence : Err := .exception "AttributeError: module 'collections' has no attribute 'Sequence'"

/-- `_get_item(items, i)` (`utils.py:273-278`); `old` says that Python is older than 3.10. -/
def getItem (old : Bool) (a : PArg) (i : Nat) : Except Err PVal :=
  match a with
  | .item (.str s) => .ok (.str s)
  | .item v => if old then .ok v else .error noSequence
  | .seq l => if old then pyGet l i else .error noSequence

/-- `_get_item(ylim, i % 2)` as arguments of `set_ylim` (`utils.py:301`): a pair is a `Sequence` too, so that one of its
two numbers is taken. -/
def getLim (old : Bool) (l : PLim) (i : Nat) : Except Err (List (Rat × Option Rat)) :=
  match l with
  | .absent => .ok []
  | .seq [] => .ok []
  | .pair a b => if old then .ok [(if i % 2 = 0 then a else b, none)] else .error noSequence
  | .seq l => if old then (match pyGet l ((i % 2 : Nat) : Int) with
      | .ok p => .ok [(p.1, some p.2)]
      | .error e => .error e) else .error noSequence

/-- An optional item: nothing when the argument is falsy (`utils.py:286-289, 295-296`). -/
def optItem (old : Bool) (a : PArg) (i : Nat) : Except Err (Option PVal) :=
  if a.truthy then (match getItem old a i with
    | .ok v => .ok (some v)
    | .error e => .error e) else .ok none

/-- `legend(**legend)` (`utils.py:302-303`): a list is not a mapping, which raises `TypeError`. -/
def legendCalls (axis : Nat) : PLegend → Except Err (List DrawCall)
  | .absent => .ok []
  | .dict d => .ok (if d.isEmpty then [] else [.legend axis d])
  | .seq l => if l.isEmpty then .ok [] else .error .typeError

/-- The calls that set the label of the y-axis (`utils.py:293-297`). -/
def ylabelCalls (old : Bool) (o : PlotOpts) (axis i : Nat) : Except Err (List DrawCall) :=
  if o.ylabel.truthy then
    match optItem old o.color i with
    | .error e => .error e
    | .ok c => match getItem old o.ylabel (i % 2) with
      | .error e => .error e
      | .ok v => .ok [.ylabel axis v c]
  else .ok []

/-- The round of the loop for series `i` (`utils.py:283-305`), with `axes` axes.  `plot` raises `ValueError` when `x` and
the series differ in length (`utils.py:290`). -/
def plotSeries (old : Bool) (x : List Rat) (o : PlotOpts) (axes : Nat) (p : List Rat × Nat) : Except Err (List DrawCall) :=
  match optItem old o.label p.2 with
  | .error e => .error e
  | .ok lab => match optItem old o.color p.2 with
    | .error e => .error e
    | .ok col =>
      if p.1.length = x.length then
        match ylabelCalls old o (p.2 % axes) p.2 with
        | .error e => .error e
        | .ok yl => match getLim old o.ylim p.2 with
          | .error e => .error e
          | .ok lims => match legendCalls (p.2 % axes) o.legend with
            | .error e => .error e
            | .ok lg => .ok (.plot (p.2 % axes) x p.1 lab col ::
                ((if o.xlabel.truthy then [.xlabel (p.2 % axes) o.xlabel] else []) ++ (yl ++
                ((match o.xlim with | some (a, b) => [.xlim (p.2 % axes) a b] | none => []) ++
                (lims.map (fun l => .ylim (p.2 % axes) l.1 l.2) ++ lg)))))
      else .error .valueError

/-- The rounds of the loop one after the other (`utils.py:283`). -/
def plotRounds (old : Bool) (x : List Rat) (o : PlotOpts) (axes : Nat) : List (List Rat × Nat) → Except Err (List DrawCall)
  | [] => .ok []
  | p :: ps => match plotSeries old x o axes p with
    | .error e => .error e
    | .ok cs => match plotRounds old x o axes ps with
      | .error e => .error e
      | .ok ds => .ok (cs ++ ds)

/-- Is an item of `y` a list or an array (`utils.py:266, 271`)? -/
def PItem.isSeries : PItem → Bool
  | .num _ => false
  | .series _ => true

/-- The series of `y` (`utils.py:271, 280-281`): the first item decides.  A number among series is plotted as a series
of one value; a series among numbers makes the conversion to an array fail (`ValueError`), as does matplotlib's
`plot`. -/
def seriesOf (y : List PItem) : Except Err (List (List Rat)) :=
  match y with
  | [] => .error .indexError
  | .series _ :: _ => .ok (y.map (fun it => match it with | .series l => l | .num q => [q]))
  | .num _ :: _ =>
    if y.all (fun it => !it.isSeries) then .ok [y.map (fun it => match it with | .series _ => 0 | .num q => q)]
    else .error .valueError

/-- `plot1D` (`utils.py:221-313`): the calls on the axes, or the exception. -/
def plot1D (old : Bool) (x : List Rat) (y : List PItem) (o : PlotOpts) : Except Err (List DrawCall) :=
  if o.twinx && decide (y.length < 2) then .error (.exception "there must be at least two series of y values provided")
  else if o.twinx && !y.all PItem.isSeries then .error (.exception "an item in y must be a list representing a y series")
  else match seriesOf y with
    | .error e => .error e
    | .ok ss => match plotRounds old x o (if o.twinx then 2 else 1) ss.zipIdx with
      | .error e => .error e
      | .ok cs => .ok (cs ++ ((if o.tight then [.tight] else []) ++ (if o.title.truthy then [.title o.title] else [])))

/-! ## The frames of `animate_activities` and `animate_hex` -/

/-- One call of `updatefig` (`utils.py:116-119`), or of `update` of `animate_hex` (`hexplot.py:84-86`): the index of the
frame that is shown next. -/
def nextFrame (n i : Nat) : Nat := if i + 1 = n then 0 else i + 1

/-- The index after `k` calls; it starts at 0 (`utils.py:115`, `hexplot.py:82`). -/
def frameIndex (n : Nat) : Nat → Nat
  | 0 => 0
  | k + 1 => nextFrame n (frameIndex n k)

/-- What call number `k` (from 1) shows: the frame, and the number in the title (`utils.py:120-122`,
`hexplot.py:87-88`). -/
def shownFrame {V : Type} (activities : List V) (k : Nat) : Except Err (V × Nat) :=
  match pyGet activities (frameIndex activities.length k) with
  | .ok a => .ok (a, frameIndex activities.length k + 1)
  | .error e => .error e

/-! ## The limits of `Turtle.animate` -/

/-- `max += 0.05*(max - min); min -= 0.05*(max - min)` (`turtle.py:103-104, 108-109`) with exact numbers: the second line
uses the new maximum. -/
def padLimits (lo hi : Rat) : Rat × Rat :=
  let hi' := hi + (1 / 20) * (hi - lo)
  (lo - (1 / 20) * (hi' - lo), hi')

/-- The limits of one axis (`turtle.py:100-104, 105-109`); `np.max` of nothing raises `ValueError`. -/
def animateLimits (vals : List (Rat × Rat)) : Except Err (Rat × Rat) :=
  match vals.flatMap (fun p => [p.1, p.2]) with
  | [] => .error .valueError
  | v :: vs => .ok (padLimits (vs.foldl min v) (vs.foldl max v))

end Verif
