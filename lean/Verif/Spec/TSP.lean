/-! # The update equation of Hopfield and Tank, tours -/

namespace Verif.Spec
open Lean.Grind

section
variable {R : Type} [CommRing R]

/-- `f 0 + … + f (n-1)`. -/
def rsum (n : Nat) (f : Nat → R) : R :=
  match n with
  | 0 => 0
  | n + 1 => rsum n f + f n

/-- The new value of the unit for point `x` and position `c`: `u` is the matrix of the activities, `V` the output
function, `dist` the distances of the points. -/
def tspUpdate (n : Nat) (dt A B C D h : R) (dist : Nat → Nat → R) (V : R → R) (u : Nat → Nat → R) (x c : Nat) : R :=
  u x c + dt * (-(u x c)
    - A * rsum n (fun j => if j = c then 0 else V (u x j))
    - B * rsum n (fun y => if y = x then 0 else V (u y c))
    - C * (rsum n (fun y => rsum n (fun j => V (u y j))) - h)
    - D * rsum n (fun y => dist x y * (V (u y ((c + 1) % n)) + V (u y ((c + (n - 1)) % n)))))

end

/-- `k` is the position of the first maximum of the row. -/
def FirstMax {E : Type} (le : E → E → Bool) (row : List E) (k : Nat) : Prop :=
  ∃ v, row[k]? = some v ∧ ∀ (j : Nat) w, row[j]? = some w → le w v = true ∧ (j < k → ¬ le v w = true)

end Verif.Spec
