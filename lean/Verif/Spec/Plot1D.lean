import Verif.Model.Plot1D
/-! # What the documentation of `plot1D` promises (used by C122), and limits of an axis (C123) -/

namespace Verif.Spec

/-- The value of an argument for series (or axis) `i`: a single value counts for all. -/
def argAt : PArg → Nat → Option PVal
  | .item .none, _ => none
  | .item v, _ => some v
  | .seq l, i => l[i]?

/-- An argument with a value for each of `n` things: absent, a single non-empty string or non-zero number, or a list of
at least `n` values. -/
def FitsArg (n : Nat) : PArg → Prop
  | .item .none => True
  | .item (.str s) => s ≠ ""
  | .item (.num q) => q ≠ 0
  | .seq l => l ≠ [] ∧ n ≤ l.length

/-- The lines drawn: axis, x values, y values, label, colour. -/
def linesOf (cs : List DrawCall) : List (Nat × List Rat × List Rat × Option PVal × Option PVal) :=
  cs.filterMap (fun c => match c with | .plot a xs ys l c => some (a, xs, ys, l, c) | _ => none)

/-- The labels given to the y-axes, in order: axis, text, colour. -/
def ylabelsOf (cs : List DrawCall) : List (Nat × PVal × Option PVal) :=
  cs.filterMap (fun c => match c with | .ylabel a v c => some (a, v, c) | _ => none)

/-- The limits given to the y-axes, in order: axis, lower limit, upper limit if it is set too. -/
def ylimsOf (cs : List DrawCall) : List (Nat × Rat × Option Rat) :=
  cs.filterMap (fun c => match c with | .ylim a b t => some (a, b, t) | _ => none)

/-- The other calls, in order: labels and limits of x, legends, the layout and the title. -/
def decorationsOf (cs : List DrawCall) : List DrawCall :=
  cs.filter (fun c => match c with | .plot .. => false | .ylabel .. => false | .ylim .. => false | _ => true)

/-- A value that counts as absent: `None`, the empty string and zero. -/
def Absent (v : PVal) : Prop := v = .none ∨ v = .str "" ∨ v = .num 0

instance (v : PVal) : Decidable (Absent v) := by unfold Absent; infer_instance

/-- The legend on axis `a`, if a non-empty dict is given. -/
def legendOn (a : Nat) : PLegend → List DrawCall
  | .dict (e :: d) => [.legend a (e :: d)]
  | _ => []

/-- What is set on axis `a` in a round, besides the line and the y-axis: the label of x if there is one, the limits of x if
there are, and the legend if there is one. -/
def axisDecorations (o : PlotOpts) (a : Nat) : List DrawCall :=
  (if Absent o.xlabel then [] else [.xlabel a o.xlabel]) ++
    ((o.xlim.toList.map fun p => .xlim a p.1 p.2) ++
      legendOn a o.legend)

/-- The series of a proper argument `y`: a non-empty list of series, or a non-empty list of numbers as one series. -/
inductive SeriesArg : List PItem → List (List Rat) → Prop where
  | many (ss : List (List Rat)) (h : ss ≠ []) : SeriesArg (ss.map .series) ss
  | one (qs : List Rat) (h : qs ≠ []) : SeriesArg (qs.map .num) [qs]

/-- How many series there are: the items, if the first is a series; otherwise the numbers are one series. -/
def seriesCount : List PItem → Nat
  | .series s :: t => (PItem.series s :: t).length
  | _ => 1

/-- The number of y-axes. -/
def axesOf (o : PlotOpts) : Nat := if o.twinx then 2 else 1

end Verif.Spec
