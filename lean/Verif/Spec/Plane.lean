/-! # Cellular automata on the infinite plane (used by C124 and C125) -/

namespace Verif.Spec

/-- The values of the cells around `(x, y)`; `D x` lists the offsets (row, column) of the neighbours of a cell of row
`x`. -/
def planeNbrs {V : Type} (D : Int → List (Int × Int)) (S : Int → Int → V) (x y : Int) : List V :=
  (D x).map (fun d => S (x + d.1) (y + d.2))

/-- The automaton on the plane after `t` steps from `S`: `F` gets the value of the cell and those of the cells around
it. -/
def planeCA {V : Type} (D : Int → List (Int × Int)) (F : V → List V → V) (S : Int → Int → V) : Nat → Int → Int → V
  | 0, x, y => S x y
  | t + 1, x, y => F (planeCA D F S t x y) (planeNbrs D (planeCA D F S t) x y)

/-- The six neighbours of a hexagonal cell of row `x`: in even rows those in the adjacent rows are above / below and to the
right, in odd rows above / below and to the left. -/
def hex6 (x : Int) : List (Int × Int) :=
  [(0, 1), (0, -1), (1, 0), (-1, 0)] ++ (if x % 2 = 1 then [(1, -1), (-1, -1)] else [(1, 1), (-1, 1)])

/-- The state of the plane that repeats the `rows × cols` state `s` in both directions. -/
def tiled {V : Type} (rows cols : Nat) (s : Nat → Nat → V) (x y : Int) : V :=
  s (x % (rows : Int)).toNat (y % (cols : Int)).toNat

/-- The six directions, clockwise from the right: one step from a hexagonal cell `(row, column)`. -/
def hexStep : Fin 6 → Int × Int → Int × Int
  | 0, (x, y) => (x, y + 1)
  | 1, (x, y) => (x + 1, if x % 2 = 1 then y else y + 1)
  | 2, (x, y) => (x + 1, if x % 2 = 1 then y - 1 else y)
  | 3, (x, y) => (x, y - 1)
  | 4, (x, y) => (x - 1, if x % 2 = 1 then y - 1 else y)
  | 5, (x, y) => (x - 1, if x % 2 = 1 then y else y + 1)

/-- `n` steps in direction `k`. -/
def hexWalk (k : Fin 6) : Nat → Int × Int → Int × Int
  | 0, p => p
  | n + 1, p => hexStep k (hexWalk k n p)

/-- Cell `q` is reached from `p` by the steps in the list. -/
def hexPath : List (Fin 6) → Int × Int → Int × Int
  | [], p => p
  | k :: ks, p => hexPath ks (hexStep k p)

end Verif.Spec
