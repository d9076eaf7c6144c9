import Verif.Model.Utils
/-! # Model of `turtle.py` and of the rendering of L-systems in `utils.py` -/

namespace Verif
section
variable {R : Type}

/-- The attributes of `Turtle` (`turtle.py:8-22`).  The top of the stack is the end of the Python list, here the head. -/
structure Turtle (R : Type) where
  x : R
  y : R
  orientation : R
  trajectory : List (List R × List R)
  stack : List (R × R × R)
  deriving DecidableEq, Repr

/-- `Turtle.__init__` (`turtle.py:8-22`). -/
def Turtle.start (x y orientation : R) : Turtle R := ⟨x, y, orientation, [], []⟩

/-- The sine and cosine of an angle in degrees (`math.sin(math.radians(a))`, `turtle.py:30-32`), as exact functions. -/
structure Trig (R : Type) where
  sin : R → R
  cos : R → R

variable [Add R] [Mul R]

/-- `Turtle.forward` (`turtle.py:24-39`). -/
def Turtle.forward (g : Trig R) (distance : R) (t : Turtle R) : Turtle R :=
  let newX := g.sin t.orientation * distance + t.x
  let newY := g.cos t.orientation * distance + t.y
  { t with trajectory := t.trajectory ++ [([t.x, newX], [t.y, newY])], x := newX, y := newY }

/-- `Turtle.rotate` (`turtle.py:41-48`). -/
def Turtle.rotate (degrees : R) (t : Turtle R) : Turtle R := { t with orientation := t.orientation + degrees }

/-- `Turtle.push` (`turtle.py:50-54`). -/
def Turtle.push (t : Turtle R) : Turtle R := { t with stack := (t.x, t.y, t.orientation) :: t.stack }

/-- `Turtle.pop` (`turtle.py:56-64`): `list.pop` of an empty list raises `IndexError`. -/
def Turtle.pop (t : Turtle R) : Except Err (Turtle R) :=
  match t.stack with
  | [] => .error .indexError
  | (x, y, o) :: rest => .ok { t with stack := rest, x := x, y := y, orientation := o }

/-- The methods of a turtle, as data (`turtle.py:24-64`). -/
inductive TurtleOp (R : Type) where
  | forward (distance : R)
  | rotate (degrees : R)
  | push
  | pop
  deriving DecidableEq, Repr

/-- Calling a method (`turtle.py:24-64`). -/
def TurtleOp.call (g : Trig R) (op : TurtleOp R) (t : Turtle R) : Except Err (Turtle R) :=
  match op with
  | .forward d => .ok (t.forward g d)
  | .rotate a => .ok (t.rotate a)
  | .push => .ok t.push
  | .pop => t.pop

/-- A program: methods called one after the other (`turtle.py:24-64`). -/
def runTurtle (g : Trig R) (ops : List (TurtleOp R)) (t : Turtle R) : Except Err (Turtle R) :=
  ops.foldlM (fun t op => op.call g t) t

end

section
variable {S σ : Type} [DecidableEq S]

/-- What a symbol is bound to (`utils.py:493-501`): one instruction or a list of instructions. -/
inductive Binding (σ : Type) where
  | one (i : σ → Except Err σ)
  | many (is : List (σ → Except Err σ))

/-- `if not isinstance(instructions, list): instructions = [instructions]` (`utils.py:495-496`). -/
def Binding.instructions : Binding σ → List (σ → Except Err σ)
  | .one i => [i]
  | .many is => is

/-- `SubstitutionSystem.to_string([state])[0]` (`substitution_system.py:86-91`) for activities that are strings over `S`
(lists of symbols). -/
def stateString {L : Type} [DecidableEq L] (le : L → L → Bool) (activities : Dict L (List S)) : List S :=
  (activityRow le activities).flatten

/-- The loop of `_render_L_system` (`utils.py:493-502`) over the string. -/
def renderString (bindings : Dict S (Binding σ)) (string : List S) (u : σ) : Except Err σ :=
  string.foldlM (fun u s => match bindings.get? s with
    | none => .error .keyError
    | some b => b.instructions.foldlM (fun u i => i u) u) u

/-- `_render_L_system` (`utils.py:491-502`). -/
def renderLSystem {L : Type} [DecidableEq L] (le : L → L → Bool) (bindings : Dict S (Binding σ))
    (activities : Dict L (List S)) (u : σ) : Except Err σ :=
  renderString bindings (stateString le activities) u

end
end Verif
