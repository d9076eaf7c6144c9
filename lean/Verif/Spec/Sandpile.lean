import Verif.Spec.CA
/-! # Specification of the sandpile on a grid -/

namespace Verif

/-- The cells above, to the right, below and to the left of a cell of the `rows × cols` torus. -/
def cross (rows cols a b : Nat) : List (Nat × Nat) :=
  [((a + rows - 1) % rows, b), (a, (b + 1) % cols), ((a + 1) % rows, b), (a, (b + cols - 1) % cols)]

/-- The cell lies on the edge of the grid. -/
def onEdge (rows cols a b : Nat) : Bool := a == 0 || a + 1 == rows || b == 0 || b + 1 == cols

/-- One simultaneous toppling step: every cell with at least four grains gives one to each of its four neighbours.  With
a closed boundary the grains that reach the edge are lost. -/
def sandStep (rows cols : Nat) (closed : Bool) (f : Nat → Nat → Int) (a b : Nat) : Int :=
  if closed && onEdge rows cols a b then 0
  else f a b + ((cross rows cols a b).countP (fun p => decide (f p.1 p.2 ≥ 4)) : Nat) - (if f a b ≥ 4 then 4 else 0)

/-- Grains on cell `(a, b)` after `t` steps from `s`. -/
def sand (rows cols : Nat) (closed : Bool) (s : Nat → Nat → Int) : Nat → Nat → Nat → Int
  | 0, a, b => s a b
  | t + 1, a, b => sandStep rows cols closed (sand rows cols closed s t) a b

/-- `f 0 + ... + f (n-1)`. -/
def sumTo : Nat → (Nat → Int) → Int
  | 0, _ => 0
  | n + 1, f => sumTo n f + f n

/-- Number of grains on the grid. -/
def grains (rows cols : Nat) (f : Nat → Nat → Int) : Int := sumTo rows (fun a => sumTo cols (fun b => f a b))

end Verif
