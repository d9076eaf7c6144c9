/-! # Python exceptions as values -/

namespace Verif

/-- Outcomes of a Python statement that does not finish normally.  `exception` is an explicit
`raise Exception(msg)` in the code (e.g. `/repo/netomaton/state.py:71`,
`/repo/netomaton/evolution.py:173`); the others are the built-in exceptions raised by dict access, list
indexing, conversions, `assert`, division and 64-bit packing.  `outOfFuel` is not Python: it marks a
`while` loop of the model that was cut off. -/
inductive Err where
  | keyError
  | indexError
  | valueError
  | typeError
  | assertion
  | zeroDivision
  | overflow
  | exception (msg : String)
  | outOfFuel
  deriving DecidableEq, Repr

/-- `true` for a normal result; used to state that a call does not raise. -/
def Except.isOk' {ε α : Type} : Except ε α → Bool
  | .ok _ => true
  | .error _ => false

deriving instance DecidableEq for Except

end Verif
