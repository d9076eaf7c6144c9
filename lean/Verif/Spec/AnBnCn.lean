/-! # The language `a^n b^n c^n`, with 1, 2, 3 for `a`, `b`, `c` -/

namespace Verif.Spec

/-- The word `a^n b^n c^n`. -/
def anbncn (n : Nat) : List Int := List.replicate n 1 ++ List.replicate n 2 ++ List.replicate n 3

/-- The tape with `w` between at least one blank on either side. -/
def padTape (left right : Nat) (w : List Int) : List Int := List.replicate (left + 1) 0 ++ w ++ List.replicate (right + 1) 0

/-- The number of steps after which the machine enters the accepting state on `a^n b^n c^n`. -/
def abcTime (n : Nat) : Nat := if n = 0 then 1 else 4 * n * n + 5 * n + 3

end Verif.Spec
