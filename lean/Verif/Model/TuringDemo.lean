import Verif.Model.Turing
/-! # Model of the first two Turing machine demos -/

namespace Verif

/-- The rule table of `demos/turing_machine/turing_machine_demo1.py:11-23` and `demos/turing_machine/turing_machine_demo2.py:11-23`: head states
1 (up) and 2 (down), symbols 0 and 1, directions 0 (left) and 2 (right). -/
def gliderTable : TMTable Nat Int := [(1, [(1, (1, 0, 2)), (0, (2, 1, 2))]), (2, [(1, (1, 1, 0)), (0, (2, 1, 0))])]

end Verif
