/-! # Words that grow by replacing every symbol -/

namespace Verif.Spec

/-- The word after `t` steps in which every symbol `c` is replaced by `f c`. -/
def growWord {S : Type} (f : S → List S) : Nat → List S → List S
  | 0, w => w
  | t + 1, w => (growWord f t w).flatMap f

/-- The number of ones among the binary digits of `k`. -/
def binaryOnes (k : Nat) : Nat := if k = 0 then 0 else k % 2 + binaryOnes (k / 2)
termination_by k
decreasing_by omega

/-- The numbers of Fibonacci, from 1 and 2 on. -/
def fibFrom12 : Nat → Nat
  | 0 => 1
  | 1 => 2
  | t + 2 => fibFrom12 (t + 1) + fibFrom12 t

end Verif.Spec
