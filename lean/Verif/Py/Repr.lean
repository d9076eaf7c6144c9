import Verif.Py.Index
/-! # Number representations of Python and numpy -/

namespace Verif

/-- Digits of `n` in base `k`, least significant first, at most `fuel` of them: the loop of `numpy.base_repr`
(`res.append(digits[num % base]); num //= base`) and of the built-in `bin`. -/
def digitsLE (k : Nat) : Nat → Nat → List Nat
  | 0, _ => []
  | fuel + 1, n => if n = 0 then [] else n % k :: digitsLE k fuel (n / k)

/-- Digits of `n` in base `k`, most significant first; `0` has the one digit `0`. -/
def digitsBE (k n : Nat) : List Nat := if n = 0 then [0] else (digitsLE k n n).reverse

/-- The characters used for digits, in order. -/
def digitChars : List Char := "0123456789ABCDEFGHIJKLMNOPQRSTUVWXYZ".toList

/-- The character of the digit `d`. -/
def digitChar (d : Nat) : Char := digitChars.getD d '?'

/-- `numpy.base_repr(n, base=k)` for a natural number `n`: bases below 2 or above 36 raise `ValueError`. -/
def baseRepr (n k : Nat) : Except Err (List Char) :=
  if k < 2 ∨ 36 < k then .error .valueError else .ok ((digitsBE k n).map digitChar)

/-- `s.zfill(w)` for a string without sign. -/
def zfill (w : Nat) (s : List Char) : List Char := List.replicate (w - s.length) '0' ++ s

/-- `int(c, k)` for a single character (upper case letters only; the modelled code produces no others) and
`2 ≤ k ≤ 36`. -/
def intOfChar (c : Char) (k : Nat) : Except Err Nat :=
  match digitChars.findIdx? (· == c) with
  | none => .error .valueError
  | some d => if d < k then .ok d else .error .valueError

/-- `str(x)` for an integer. -/
def strInt (x : Int) : List Char :=
  if x < 0 then '-' :: (digitsBE 10 x.natAbs).map digitChar else (digitsBE 10 x.natAbs).map digitChar

/-- `len(set(s)) == 1` for a string. -/
def uniform (s : List Char) : Bool :=
  match s with
  | [] => false
  | c :: cs => cs.all (· == c)

end Verif
