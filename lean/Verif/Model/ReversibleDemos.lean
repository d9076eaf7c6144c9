import Verif.Model.Rules
/-! # The rows of the reversible rule 122 demos -/

namespace Verif

/-- `[0]*40 + [1]*20 + [0]*40`, the initial and the past conditions (`demos/reversible_ca/rule122R_entropy_demo.py:10-13`). -/
def orderedRow : List Int := List.replicate 40 0 ++ List.replicate 20 1 ++ List.replicate 40 0

/-- `previous_state` (`demos/reversible_ca/rule122R_reverse_demo.py:12-15`). -/
def reversePast : List Int :=
  [1, 1, 0, 0, 1, 1, 0, 0, 0, 0, 1, 1, 0, 1, 1, 1, 0, 1, 0, 1, 1, 1, 0, 0, 0, 1, 1, 1, 0, 1, 1, 1, 0, 0, 0, 1, 0, 0, 1, 1, 1, 1, 0,
   1, 1, 0, 1, 0, 1, 1, 1, 1, 0, 1, 0, 1, 1, 0, 1, 1, 1, 1, 0, 0, 1, 0, 0, 0, 1, 1, 1, 0, 1, 1, 1, 0, 0, 0, 1, 1, 1, 0, 1, 0, 1, 1,
   1, 0, 1, 1, 0, 0, 0, 0, 1, 1, 0, 0, 1, 1]

/-- `initial_conditions` (`demos/reversible_ca/rule122R_reverse_demo.py:16-19`). -/
def reverseRow : List Int :=
  [1, 1, 1, 0, 1, 1, 1, 1, 0, 0, 0, 1, 1, 1, 1, 1, 1, 0, 1, 1, 0, 0, 1, 0, 1, 0, 1, 0, 0, 0, 0, 0, 0, 0, 0, 0, 1, 1, 1, 1, 1, 1, 1,
   1, 1, 1, 0, 1, 0, 1, 1, 0, 1, 0, 1, 1, 1, 1, 1, 1, 1, 1, 1, 1, 0, 0, 0, 0, 0, 0, 0, 0, 0, 1, 0, 1, 0, 1, 0, 0, 1, 1, 0, 1, 1, 1,
   1, 1, 1, 0, 0, 0, 1, 1, 1, 1, 0, 1, 1, 1]

end Verif
