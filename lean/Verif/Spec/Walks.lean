import Verif.Spec.Hopfield
/-! # Powers of a matrix and walks (used by C164) -/

namespace Verif.Spec

/-- Entry in row `y` and column `x` of the power `t` of the `n` by `n` matrix `W`. -/
def matPow (n : Nat) (W : Nat → Nat → Int) : Nat → Nat → Nat → Int
  | 0, y, x => if y = x then 1 else 0
  | t + 1, y, x => isum n (fun z => matPow n W t y z * W z x)

/-- The list names the nodes of a walk from `y` along links of `W`, backwards: the last node first, and `y` at the end. -/
def WalkBack (n : Nat) (W : Nat → Nat → Int) (y : Nat) : List Nat → Prop
  | [] => False
  | [x] => x = y ∧ x < n
  | x :: z :: p => x < n ∧ W z x ≠ 0 ∧ WalkBack n W y (z :: p)

end Verif.Spec
