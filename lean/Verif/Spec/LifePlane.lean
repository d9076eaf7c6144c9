import Verif.Spec.Rules
import Verif.Spec.TorusCA
/-! # Conway's Life on the unbounded plane, for finite sets of live cells -/

namespace Verif.Spec

/-- The number of live cells around `p`. -/
def aliveAround (L : List (Int × Int)) (p : Int × Int) : Nat :=
  moore8.countP (fun d => decide ((p.1 + d.1, p.2 + d.2) ∈ L))

/-- Whether `p` is alive after a step from the live cells `L`. -/
def aliveNext (L : List (Int × Int)) (p : Int × Int) : Bool := conway (decide (p ∈ L)) (aliveAround L p)

/-- The live cells after a step: candidates are the live cells and the cells around them. -/
def planeStep (L : List (Int × Int)) : List (Int × Int) :=
  (L.flatMap (fun c => c :: moore8.map (fun d => (c.1 + d.1, c.2 + d.2)))).eraseDups.filter (aliveNext L)

/-- The live cells after `t` steps. -/
def planeLife (L : List (Int × Int)) : Nat → List (Int × Int)
  | 0 => L
  | t + 1 => planeStep (planeLife L t)

/-- The cells moved by `k` times `v`. -/
def movedBy (k : Int) (v : Int × Int) (L : List (Int × Int)) : List (Int × Int) := L.map (fun c => (c.1 + k * v.1, c.2 + k * v.2))

/-- The same cells, in any order and multiplicity. -/
def SameCells (L L' : List (Int × Int)) : Prop := ∀ p, p ∈ L ↔ p ∈ L'

/-- The live cells of the torus are those of `L`, taken around the torus. -/
def OnTorus (rows cols : Nat) (L : List (Int × Int)) (s : Nat → Nat → Bool) : Prop :=
  ∀ a b, a < rows → b < cols → (s a b = true ↔ ∃ c ∈ L, c.1 % (rows : Int) = a ∧ c.2 % (cols : Int) = b)

/-- The cells lie in a rectangle that leaves at least two rows and two columns free. -/
def FitsIn (rows cols : Nat) (L : List (Int × Int)) : Prop :=
  ∃ i j : Int, ∀ c ∈ L, i ≤ c.1 ∧ c.1 < i + rows - 2 ∧ j ≤ c.2 ∧ c.2 < j + cols - 2

/-- At most two steps apart on a ring of `n` cells. -/
def nearOnRing (n : Nat) (x y : Int) : Bool := decide ((x - y) % (n : Int) ≤ 2) || decide ((n : Int) - 2 ≤ (x - y) % (n : Int))

/-- No cell of the torus touches both sets. -/
def apart (rows cols : Nat) (L L' : List (Int × Int)) : Bool :=
  L.all (fun c => L'.all (fun c' => !(nearOnRing rows c.1 c'.1 && nearOnRing cols c.2 c'.2)))

/-- Whether a cell of the torus is covered by one of the cells, taken around the torus. -/
def covers (rows cols : Nat) (L : List (Int × Int)) (a b : Nat) : Bool :=
  L.any (fun c => decide (c.1 % (rows : Int) = a) && decide (c.2 % (cols : Int) = b))

/-- A pattern that comes back after `p` steps, moved by `v`: its generation `t`. -/
def shipAt (L : List (Int × Int)) (p : Nat) (v : Int × Int) (t : Nat) : List (Int × Int) :=
  movedBy ((t / p : Nat) : Int) v (planeLife L (t % p))

/-- The glider. -/
def glider : List (Int × Int) := [(0, 1), (1, 2), (2, 0), (2, 1), (2, 2)]

/-- The lightweight spaceship. -/
def lwss : List (Int × Int) := [(0, 1), (0, 4), (1, 0), (2, 0), (2, 4), (3, 0), (3, 1), (3, 2), (3, 3)]

/-- The blinker. -/
def blinker : List (Int × Int) := [(0, 0), (0, 1), (0, 2)]

end Verif.Spec
