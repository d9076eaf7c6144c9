import Verif.Model.State
/-! # Which Python values survive msgpack (`/repo/netomaton/state.py:325-352`)

A model of what `unpackb(packb(v), strict_map_key=False)` returns for a value `v`. -/

namespace Verif

/-- Python values used as attributes (`state.py:18, 56`).  Floats are given by their 64-bit pattern; `object` is any
object msgpack cannot serialise (a set, a function, a numpy scalar, ...). -/
inductive PyVal where
  | none
  | bool (b : Bool)
  | int (z : Int)
  | float (bits : Nat)
  | str (s : String)
  | list (xs : List PyVal)
  | tuple (xs : List PyVal)
  | dict (kvs : List (String × PyVal))
  | object (id : Nat)

namespace PyVal

mutual
/-- `msgpack.packb` (`state.py:338`): `OverflowError` for an integer that does not fit in 64 bits, `TypeError` for
other objects. -/
def pack : PyVal → Except Err Unit
  | .none => .ok ()
  | .bool _ => .ok ()
  | .int z => if -(2 ^ 63) ≤ z ∧ z < 2 ^ 64 then .ok () else .error .overflow
  | .float _ => .ok ()
  | .str _ => .ok ()
  | .list xs => packList xs
  | .tuple xs => packList xs
  | .dict kvs => packDict kvs
  | .object _ => .error .typeError
/-- Items of a sequence (`state.py:338`). -/
def packList : List PyVal → Except Err Unit
  | [] => .ok ()
  | x :: xs => match pack x with
    | .error e => .error e
    | .ok () => packList xs
/-- Values of a dict with string keys (`state.py:338`). -/
def packDict : List (String × PyVal) → Except Err Unit
  | [] => .ok ()
  | (_, x) :: xs => match pack x with
    | .error e => .error e
    | .ok () => packDict xs
end

mutual
/-- `msgpack.unpackb` of a packed value (`state.py:350`): arrays always come back as lists. -/
def unpack : PyVal → PyVal
  | .list xs => .list (unpackList xs)
  | .tuple xs => .list (unpackList xs)
  | .dict kvs => .dict (unpackDict kvs)
  | v => v
/-- Items of a sequence (`state.py:350`). -/
def unpackList : List PyVal → List PyVal
  | [] => []
  | x :: xs => unpack x :: unpackList xs
/-- Values of a dict (`state.py:350`). -/
def unpackDict : List (String × PyVal) → List (String × PyVal)
  | [] => []
  | (k, x) :: xs => (k, unpack x) :: unpackDict xs
end

/-- msgpack on attribute values (`state.py:338, 350`). -/
def codec : Codec PyVal := ⟨pack, unpack⟩

end PyVal
end Verif
