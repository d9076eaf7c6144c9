import Verif.Model.Network
/-! # Model of packing and of `State` (`/repo/netomaton/state.py:159-181, 288-352`)

`V` is the type of node activities.  The byte format of msgpack is not modelled: a packed object is represented by
the value that was packed.  `Codec` says which scalars can be packed and what unpacking returns for them. -/

namespace Verif

/-- What `msgpack.packb` / `msgpack.unpackb` (`state.py:338, 350`) do to the values of type `T` that occur in a
packed dict: `pack` fails with the exception `packb` raises (e.g. `OverflowError` for an integer of more than 64
bits), `unpack` gives the value that comes back (e.g. a list for a tuple). -/
structure Codec (T : Type) where
  pack : T → Except Err Unit
  unpack : T → T

/-- `unpackb (packb x)` returns `x` for every value (`state.py:338, 350`). -/
def Codec.Exact {T : Type} (c : Codec T) : Prop := ∀ x, c.pack x = .ok () ∧ c.unpack x = x

/-- Rebuilding a dict entry by entry, as `unpackb` does (`state.py:350`); a repeated key overwrites. -/
def Dict.ofPairs {K V : Type} [DecidableEq K] (ps : List (K × V)) : Dict K V :=
  ps.foldl (fun d p => d.set p.1 p.2) []

section
variable {L A V : Type} [DecidableEq L]

/-- Packing every item of a list, first exception wins (`state.py:338`). -/
def packAll {T : Type} (f : T → Except Err Unit) : List T → Except Err Unit
  | [] => .ok ()
  | x :: xs => match f x with
    | .error e => .error e
    | .ok () => packAll f xs

/-- Packing a pair key, value (`state.py:338`). -/
def packPair {K T : Type} (f : K → Except Err Unit) (g : T → Except Err Unit) (p : K × T) : Except Err Unit :=
  match f p.1 with
  | .error e => .error e
  | .ok () => g p.2

/-- `packb` of an activity dict (`state.py:312, 338`). -/
def packActs (cl : Codec L) (cv : Codec V) (d : Dict L V) : Except Err Unit :=
  packAll (packPair cl.pack cv.pack) d

/-- `unpackb` of an activity dict (`state.py:307, 350`). -/
def unpackActs (cl : Codec L) (cv : Codec V) (d : Dict L V) : Dict L V :=
  Dict.ofPairs (d.map (fun p => (cl.unpack p.1, cv.unpack p.2)))

/-- `packb` of an attribute dict; its keys are strings and always packable (`state.py:338`). -/
def packAttr (ca : Codec A) (a : Attr A) : Except Err Unit := packAll (fun p => ca.pack p.2) a

/-- `unpackb` of an attribute dict (`state.py:350`). -/
def unpackAttr (ca : Codec A) (a : Attr A) : Attr A := a.map (fun p => (p.1, ca.unpack p.2))

/-- `packb` of one node dict (`state.py:338`).  The degree counters are assumed to fit in 64 bits. -/
def packNode (cl : Codec L) (ca : Codec A) (d : Node L A) : Except Err Unit :=
  match packAll (packPair cl.pack (packAll (packAttr ca))) d.incoming with
  | .error e => .error e
  | .ok () => match packAll cl.pack d.outgoing with
    | .error e => .error e
    | .ok () => packAttr ca d.attrs

/-- `unpackb` of one node dict (`state.py:350`). -/
def unpackNode (cl : Codec L) (ca : Codec A) (d : Node L A) : Node L A :=
  { inDeg := d.inDeg, outDeg := d.outDeg,
    incoming := Dict.ofPairs (d.incoming.map (fun p => (cl.unpack p.1, p.2.map (unpackAttr ca)))),
    outgoing := d.outgoing.map cl.unpack,
    attrs := unpackAttr ca d.attrs }

/-- `Network.compress` (`state.py:162-168`): only `_network` is packed. -/
def Net.pack (cl : Codec L) (ca : Codec A) (n : Net L A) : Except Err Unit :=
  packAll (packPair cl.pack (packNode cl ca)) n.nodes

/-- `Network.decompress` (`state.py:170-181`): a new `Network`, hence without rotation system. -/
def Net.unpack (cl : Codec L) (ca : Codec A) (n : Net L A) : Net L A :=
  ⟨Dict.ofPairs (n.nodes.map (fun p => (cl.unpack p.1, unpackNode cl ca p.2))), none⟩

/-- `Network.copy` (`state.py:159-160`). -/
def Net.copy (cl : Codec L) (ca : Codec A) (n : Net L A) : Except Err (Net L A) :=
  match n.pack cl ca with
  | .error e => .error e
  | .ok () => .ok (n.unpack cl ca)

/-- A `Network` object held by a `State` (`state.py:319-322`): a reference to a live object, or packed bytes (an
immutable snapshot). -/
inductive NetSlot (L A : Type) where
  | ref (r : Nat)
  | packed (n : Net L A)

/-- `State.__slots__` (`state.py:289`).  With compression the activities are packed too; a packed or plain dict that
nobody mutates is the same value, so one field is enough. -/
structure St (L A V : Type) where
  compression : Bool
  acts : Option (Dict L V)
  net : Option (NetSlot L A)

/-- `State(compression=c)` (`state.py:291-302`). -/
def St.new (c : Bool) : St L A V := ⟨c, none, none⟩

/-- The `activities` setter (`state.py:309-312`): an empty dict is not stored. -/
def St.setActs (cl : Codec L) (cv : Codec V) (s : St L A V) (d : Dict L V) : Except Err (St L A V) :=
  if d.isEmpty then .ok s
  else if s.compression then
    match packActs cl cv d with
    | .error e => .error e
    | .ok () => .ok { s with acts := some d }
  else .ok { s with acts := some d }

/-- The `activities` getter (`state.py:304-307`). -/
def St.getActs (cl : Codec L) (cv : Codec V) (s : St L A V) : Option (Dict L V) :=
  s.acts.map (fun d => if s.compression then unpackActs cl cv d else d)

/-- The `network` setter (`state.py:319-322`); `n` is the current content of object `r`.  An empty network is falsy
(`__len__`, `state.py:281`) and not stored. -/
def St.setNet (cl : Codec L) (ca : Codec A) (s : St L A V) (r : Nat) (n : Net L A) : Except Err (St L A V) :=
  if n.nodes.isEmpty then .ok s
  else if s.compression then
    match n.pack cl ca with
    | .error e => .error e
    | .ok () => .ok { s with net := some (.packed n) }
  else .ok { s with net := some (.ref r) }

/-- The `network` getter (`state.py:314-317`), as a value: the present content of the object.  A network that became
empty after it was stored is falsy, and the getter returns `None`. -/
def St.getNet (cl : Codec L) (ca : Codec A) (heap : List (Net L A)) (s : St L A V) : Option (Net L A) :=
  match s.net with
  | none => none
  | some (.packed n) => some (n.unpack cl ca)
  | some (.ref r) => match heap[r]? with
    | none => none
    | some n => if n.nodes.isEmpty then none else some n

end
end Verif
