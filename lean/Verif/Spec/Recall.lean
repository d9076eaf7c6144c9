import Verif.Spec.Hopfield
/-! # Recalling patterns -/

namespace Verif.Spec

/-- What the units where `good` holds contribute to the field of unit `i` in the direction of `p i`, if they have the values of `p`, minus
all that the other units could contribute in the other direction. -/
def margin (n : Nat) (W : Nat → Nat → Int) (p : Nat → Int) (good : Nat → Bool) (i : Nat) : Int :=
  isum n (fun j => if good j then W i j * p j * p i else -((W i j).natAbs : Int))

/-- The sum of the absolute values of all weights. -/
def weightSum (n : Nat) (W : Nat → Nat → Int) : Int := isum n (fun i => isum n (fun j => ((W i j).natAbs : Int)))

/-- The states `a` and `b` of `n` units are the same. -/
def sameState (n : Nat) (a b : Nat → Int) : Bool := (List.range n).all (fun x => decide (a x = b x))

/-- The number of the first `T` steps that change the state. -/
def changesUpTo (n : Nat) (f : Nat → Nat → Int) (T : Nat) : Nat := ((List.range T).filter (fun t => !sameState n (f (t + 1)) (f t))).length

end Verif.Spec
