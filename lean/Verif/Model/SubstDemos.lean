import Verif.Model.Substitution
/-! # Model of the demos of substitution systems with keys of one symbol -/

namespace Verif

/-- `str(v)` of a non-negative `int` (`substitution_system.py:68`). -/
def natStr (v : Nat) : List Char := Nat.toDigits 10 v

/-- `int(c)` of a character (`substitution_system.py:13, 54`), restricted to the decimal digits of ASCII; anything else
raises `ValueError` (Python's `int` accepts further Unicode digits). -/
def natDtype (c : Char) : Except Err Nat := if c.isDigit then .ok (c.toNat - 48) else .error .valueError

/-- The rules of `demos/substitution_systems/substitution_system_demo1.py:6-9`. -/
def thueRules : Dict (List Char) (List Char) := [(['2'], ['2', '1']), (['1'], ['1', '2'])]

/-- The rules of `demos/substitution_systems/substitution_system_demo2.py:6-9`. -/
def fibRules : Dict (List Char) (List Char) := [(['2'], ['1']), (['1'], ['1', '2'])]

end Verif
