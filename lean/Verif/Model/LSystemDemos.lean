import Verif.Model.Substitution
import Verif.Model.Turtle
/-! # Model of the demos of Lindenmayer systems -/

namespace Verif

/-- `str(v)` of a string (`substitution_system.py:68`). -/
def strStr (v : List Char) : List Char := v

/-- `str(c)` of a character (`substitution_system.py:13, 54`). -/
def strDtype (c : Char) : Except Err (List Char) := .ok [c]

/-- `[s for s in axiom]` of a string (`substitution_system.py:11`): its characters, as strings. -/
def lAxiom (s : List Char) : List (List Char) := s.map (fun c => [c])

/-- The rules of `demos/lindenmayer_systems/koch_curve_demo.py:10-12`. -/
def kochRules : Dict (List Char) (List Char) := [(['F'], ['F', '+', 'F', '-', 'F', '-', 'F', '+', 'F'])]

/-- The constants of `demos/lindenmayer_systems/koch_curve_demo.py:12`. -/
def turnSigns : List (List Char) := [['+'], ['-']]

/-- The rules of `demos/lindenmayer_systems/sierpinski_triangle_demo.py:10-13`. -/
def sierpinskiRules : Dict (List Char) (List Char) :=
  [(['F'], ['F', '-', 'G', '+', 'F', '+', 'G', '-', 'F']), (['G'], ['G', 'G'])]

/-- The axiom of `demos/lindenmayer_systems/sierpinski_triangle_demo.py:13`. -/
def sierpinskiAxiom : List Char := ['F', '-', 'G', '-', 'G']

/-- The rules of `demos/lindenmayer_systems/moore_curve_demo.py:11-14`. -/
def mooreRules : Dict (List Char) (List Char) :=
  [(['L'], ['-', 'R', 'F', '+', 'L', 'F', 'L', '+', 'F', 'R', '-']),
   (['R'], ['+', 'L', 'F', '-', 'R', 'F', 'R', '-', 'F', 'L', '+'])]

/-- The constants of `demos/lindenmayer_systems/moore_curve_demo.py:14`. -/
def mooreConstants : List (List Char) := [['F'], ['+'], ['-']]

/-- The axiom of `demos/lindenmayer_systems/moore_curve_demo.py:14`. -/
def mooreAxiom : List Char := ['L', 'F', 'L', '+', 'F', '+', 'L', 'F', 'L']

/-- The rules of `demos/lindenmayer_systems/fractal_tree_demo.py:10-13`. -/
def treeRules : Dict (List Char) (List Char) := [(['1'], ['1', '1']), (['0'], ['1', '[', '0', ']', '0'])]

/-- The constants of `demos/lindenmayer_systems/fractal_tree_demo.py:13`. -/
def treeConstants : List (List Char) := [['['], [']']]

/-- The rules of `demos/lindenmayer_systems/fractal_plant_demo.py:10-13`. -/
def plantRules : Dict (List Char) (List Char) :=
  [(['X'], ['F', '+', '[', '[', 'X', ']', '-', 'X', ']', '-', 'F', '[', '-', 'F', 'X', ']', '+', 'X']), (['F'], ['F', 'F'])]

/-- The constants of `demos/lindenmayer_systems/fractal_plant_demo.py:13`. -/
def plantConstants : List (List Char) := [['+'], ['-'], ['['], [']']]

section
variable {R : Type} [Lean.Grind.CommRing R]

/-- The bound method `t.forward`, called without argument: the distance is 1 (`turtle.py:24`, `utils.py:497-498`). -/
def bindForward (g : Trig R) : Binding (Turtle R) := .one (TurtleOp.call g (.forward 1))

/-- A pair `(t.rotate, a)` (`utils.py:499-501`). -/
def bindRotate (g : Trig R) (a : R) : Binding (Turtle R) := .one (TurtleOp.call g (.rotate a))

/-- The bindings of `demos/lindenmayer_systems/koch_curve_demo.py:18-22`. -/
def kochBindings (g : Trig R) : Dict Char (Binding (Turtle R)) :=
  [('F', bindForward g), ('+', bindRotate g (-90)), ('-', bindRotate g 90)]

/-- The bindings of `demos/lindenmayer_systems/sierpinski_triangle_demo.py:20-25`. -/
def sierpinskiBindings (g : Trig R) : Dict Char (Binding (Turtle R)) :=
  [('F', bindForward g), ('G', bindForward g), ('+', bindRotate g (-120)), ('-', bindRotate g 120)]

/-- The bindings of `demos/lindenmayer_systems/moore_curve_demo.py:21-27`. -/
def mooreBindings (g : Trig R) : Dict Char (Binding (Turtle R)) :=
  [('F', bindForward g), ('R', .many []), ('L', .many []), ('+', bindRotate g 90), ('-', bindRotate g (-90))]

/-- The bindings of `demos/lindenmayer_systems/fractal_tree_demo.py:20-25`. -/
def treeBindings (g : Trig R) : Dict Char (Binding (Turtle R)) :=
  [('1', bindForward g), ('0', bindForward g),
   ('[', .many [TurtleOp.call g .push, TurtleOp.call g (.rotate (-45))]),
   (']', .many [TurtleOp.call g .pop, TurtleOp.call g (.rotate 45)])]

/-- The bindings of `demos/lindenmayer_systems/fractal_plant_demo.py:20-27`. -/
def plantBindings (g : Trig R) : Dict Char (Binding (Turtle R)) :=
  [('F', bindForward g), ('X', .many []), ('+', bindRotate g (-25)), ('-', bindRotate g 25),
   ('[', .one (TurtleOp.call g .push)), (']', .one (TurtleOp.call g .pop))]

end
end Verif
