import Mathlib.Analysis.SpecialFunctions.Trigonometric.Basic
import Verif.Model.Turtle
/-! # Model of what `turtle.py` shows: position, distance, picture and animation -/

namespace Verif

section
variable {R : Type}

/-- `Turtle.pos` (`turtle.py:66-73`). -/
def Turtle.pos (t : Turtle R) : R × R := (t.x, t.y)

/-- The segments that `Turtle.plot` draws (`turtle.py:87-88`), in their order. -/
def Turtle.plotted (t : Turtle R) : List (List R × List R) := t.trajectory

/-- A call of `update(t)` in `Turtle.animate` (`turtle.py:111-120`), as a change of the list of the segments on the axes; `ax.clear()`
removes all of them. -/
def turtleUpdate (trajectory : List (List R × List R)) (loop : Bool) (axes : List (List R × List R)) (t : Nat) :
    Except Err (List (List R × List R)) :=
  match trajectory[t]? with
  | none => .error .indexError
  | some s => .ok (if t = trajectory.length - 1 ∧ loop = true then [] else axes ++ [s])

/-- Calls of `update` one after the other (`turtle.py:122-123`), on empty axes. -/
def turtleFrames (trajectory : List (List R × List R)) (loop : Bool) (calls : List Nat) : Except Err (List (List R × List R)) :=
  calls.foldlM (turtleUpdate trajectory loop) []

end

/-- `Turtle.abs` (`turtle.py:75-82`), on the real numbers. -/
noncomputable def Turtle.abs (t : Turtle ℝ) : ℝ := Real.sqrt (t.x ^ 2 + t.y ^ 2)

/-- The body of a loop that draws a star or a polygon (`test_turtle.py:14-15`): forward, then a turn. -/
def Turtle.edge {R : Type} [Add R] [Mul R] (g : Trig R) (d a : R) (t : Turtle R) : Turtle R := (t.forward g d).rotate a

open Classical in
/-- The loop that draws a star until the turtle is back (`test_turtle.py:13-17`); `none` if it has not stopped after `fuel` rounds. -/
noncomputable def starLoop (g : Trig ℝ) (d a : ℝ) : Nat → Turtle ℝ → Option (Turtle ℝ)
  | 0, _ => none
  | fuel + 1, t => if (t.edge g d a).abs < 1 then some (t.edge g d a) else starLoop g d a fuel (t.edge g d a)

end Verif
