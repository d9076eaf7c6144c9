import Verif.Model.Hopfield
/-! # Model of the patterns of the Hopfield net demo (`demos/hopfield_net`) -/

namespace Verif

/-- `[-1 if x == 0 else x for x in pattern]` (`hopfield_net_demo.py:28-30, 58-60`). -/
def bipolar (pattern : List Int) : List Int := pattern.map (fun x => if x = 0 then -1 else x)

/-- `zero` (`hopfield_net_demo.py:6-12`), bipolar. -/
def demoZero : List Int := bipolar [0, 1, 1, 1, 0, 1, 0, 0, 0, 1, 1, 0, 0, 0, 1, 1, 0, 0, 0, 1, 1, 0, 0, 0, 1, 0, 1, 1, 1, 0]

/-- `one` (`hopfield_net_demo.py:13-19`), bipolar. -/
def demoOne : List Int := bipolar [0, 1, 1, 0, 0, 0, 0, 1, 0, 0, 0, 0, 1, 0, 0, 0, 0, 1, 0, 0, 0, 0, 1, 0, 0, 0, 0, 1, 0, 0]

/-- `two` (`hopfield_net_demo.py:20-26`), bipolar. -/
def demoTwo : List Int := bipolar [1, 1, 1, 0, 0, 0, 0, 0, 1, 0, 0, 0, 0, 1, 0, 0, 1, 1, 0, 0, 1, 0, 0, 0, 0, 1, 1, 1, 1, 1]

/-- `half_zero` (`hopfield_net_demo.py:37-43`), bipolar. -/
def demoHalfZero : List Int := bipolar [0, 1, 1, 1, 0, 1, 0, 0, 0, 1, 1, 0, 0, 0, 1, 0, 0, 0, 0, 0, 0, 0, 0, 0, 0, 0, 0, 0, 0, 0]

/-- `half_one` (`hopfield_net_demo.py:44-50`), bipolar. -/
def demoHalfOne : List Int := bipolar [0, 0, 1, 0, 0, 0, 0, 1, 0, 0, 0, 0, 1, 0, 0, 0, 0, 1, 0, 0, 0, 0, 0, 0, 0, 0, 0, 0, 0, 0]

/-- `half_two` (`hopfield_net_demo.py:51-57`), bipolar. -/
def demoHalfTwo : List Int := bipolar [0, 0, 0, 0, 0, 0, 0, 0, 0, 0, 0, 0, 0, 0, 0, 0, 1, 1, 0, 0, 1, 0, 0, 0, 0, 1, 1, 1, 1, 1]

/-- The patterns for training (`hopfield_net_demo.py:34`). -/
def demoPatterns : List (List Int) := [demoZero, demoOne, demoTwo]

end Verif
