/-! # Cellular automata on a torus -/

namespace Verif.Spec

/-- The value of the cell of row `i` and column `j`, both taken around the torus. -/
def torusAt {V : Type} (rows cols : Nat) (s : Nat → Nat → V) (i j : Int) : V :=
  s (i % (rows : Int)).toNat (j % (cols : Int)).toNat

/-- The eight directions. -/
def moore8 : List (Int × Int) := [(-1, -1), (-1, 0), (-1, 1), (0, -1), (0, 1), (1, -1), (1, 0), (1, 1)]

/-- The four directions. -/
def vonNeumann4 : List (Int × Int) := [(-1, 0), (0, -1), (0, 1), (1, 0)]

/-- The values of the cells around `(a, b)`. -/
def torusNbrs {V : Type} (rows cols : Nat) (D : List (Int × Int)) (s : Nat → Nat → V) (a b : Nat) : List V :=
  D.map (fun d => torusAt rows cols s ((a : Int) + d.1) ((b : Int) + d.2))

/-- The automaton after `t` steps from `s`: `F` gets the value of the cell and those of the cells around it. -/
def torusCA {V : Type} (rows cols : Nat) (D : List (Int × Int)) (F : V → List V → V) (s : Nat → Nat → V) :
    Nat → Nat → Nat → V
  | 0, a, b => s a b
  | t + 1, a, b => F (torusCA rows cols D F s t a b) (torusNbrs rows cols D (torusCA rows cols D F s t) a b)

end Verif.Spec
