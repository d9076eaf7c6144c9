import Verif.Model.Evolution
import Verif.Py.Repr
/-! # Model of `wolfram_physics_model.py`

Nodes are integers, a relation is a list of nodes; `S` is the type of the symbols of the rules. -/

namespace Verif

/-- The values of the connection states (`wolfram_physics_model.py:11-15`): the label is a string, `hyperedge_index` an
integer, `unary` a flag. -/
inductive WVal where
  | str (s : List Char)
  | num (n : Nat)
  | flag (b : Bool)
  deriving DecidableEq, Repr

/-- The attributes of the edge number `k` of a relation (`wolfram_physics_model.py:25-28`). -/
def wAttr (label : List Char) (hyper : Bool) (k : Nat) : Attr WVal :=
  if hyper then [("label", .str label), ("hyperedge_index", .num k)] else [("label", .str label)]

/-- The loop over the nodes of a relation (`wolfram_physics_model.py:23-30`), from the previous node on; `next_edge_num` is
`k`. -/
def wPath (label : List Char) (hyper : Bool) : Option Int → Nat → List Int → NetM Int WVal Unit
  | _, _, [] => NetM.pure ()
  | none, k, x :: xs => wPath label hyper (some x) k xs
  | some p, k, x :: xs => do
    Net.addEdge p x (wAttr label hyper k)
    wPath label hyper (some x) (k + 1) xs

/-- The loop body of `_init_network_and_conditions` (`wolfram_physics_model.py:18-35`) for the relation at position `c`. -/
def wRelation (p : List Int × Nat) : NetM Int WVal Unit := do
  wPath (strInt (p.2 + 1)) (decide (2 < p.1.length)) none 0 p.1
  match p.1 with
  | [x] => Net.addEdge x x [("label", .str (strInt (p.2 + 1))), ("unary", .flag true)]
  | _ => NetM.pure ()

/-- `_init_network_and_conditions` (`wolfram_physics_model.py:10-36`): the network and the last node.  Adding edges does not
raise. -/
def wInit (config : List (List Int)) : Net Int WVal × Int :=
  ((NetM.forEach config.zipIdx wRelation Net.empty).2, config.flatten.foldl (fun l x => if x > l then x else l) 0)

/-- The dicts `edges` and `hyperedges` of `network_to_config` (`wolfram_physics_model.py:40-41`). -/
structure WCollect where
  edges : Dict (List Char) (List Int)
  hyper : Dict (List Char) (List ((Int × Int) × Nat))

/-- The loop body of `network_to_config` (`wolfram_physics_model.py:48-56`) for one connection.  Simplified: labels that are
not strings, and indices that are not integers, are a `TypeError`. -/
def wCollect (s : WCollect) (e : Int × Int × Attr WVal) : Except Err WCollect :=
  match e.2.2.get? "label" with
  | none => .error .keyError
  | some (.str l) =>
    if e.2.2.has "unary" then .ok { s with edges := s.edges.set l [e.1] }
    else match e.2.2.get? "hyperedge_index" with
      | some (.num k) =>
        .ok { s with hyper := s.hyper.set l ((s.hyper.get? l).getD [] ++ [((e.1, e.2.1), k)]) }
      | some _ => .error .typeError
      | none => .ok { s with edges := s.edges.set l [e.1, e.2.1] }
  | some _ => .error .typeError

/-- The loop body of the merging of the parts of a hyperedge (`wolfram_physics_model.py:64-69`). -/
def wMergePart (merged : List Int) (part : (Int × Int) × Nat) : Except Err (List Int) :=
  if part.2 < merged.length then
    .ok (if part.2 + 2 = merged.length then (merged.set part.2 part.1.1).set (merged.length - 1) part.1.2
      else merged.set part.2 part.1.1)
  else .error .indexError

/-- The merging of the parts of a hyperedge (`wolfram_physics_model.py:62-70`). -/
def wMerge (parts : List ((Int × Int) × Nat)) : Except Err (List Int) :=
  parts.foldlM wMergePart (List.replicate (parts.length + 1) 0)

/-- The loop over the hyperedges (`wolfram_physics_model.py:59-70`). -/
def wMergeAll : Dict (List Char) (List ((Int × Int) × Nat)) → Except Err (Dict (List Char) (List Int))
  | [] => .ok []
  | (l, parts) :: rest => match wMerge parts with
    | .error e => .error e
    | .ok r => match wMergeAll rest with
      | .error e => .error e
      | .ok d => .ok ((l, r) :: d)

/-- The order of Python strings, used by `sorted` (`wolfram_physics_model.py:73`): lexicographic by code points. -/
def strLe : List Char → List Char → Bool
  | [], _ => true
  | _ :: _, [] => false
  | a :: as, b :: bs => if a = b then strLe as bs else decide (a.toNat < b.toNat)

/-- `network_to_config` (`wolfram_physics_model.py:38-75`).  The three nested loops visit the connections in the order of
`network.edges`. -/
def wConfig (n : Net Int WVal) : Except Err (List (List Int)) :=
  match n.edges.foldlM wCollect ⟨[], []⟩ with
  | .error e => .error e
  | .ok s => match wMergeAll s.hyper with
    | .error e => .error e
    | .ok merged =>
      let edges := s.edges.update merged
      .ok ((edges.keys.mergeSort strLe).filterMap edges.get?)

section
variable {S : Type} [DecidableEq S]

/-- The loop of `_matches` (`wolfram_physics_model.py:137-151`) over the symbols and the nodes at the same positions; `added`
are the symbols bound so far. -/
def wMatchLoop : List (S × Int) → Dict S Int → List S → Bool × Dict S Int
  | [], b, _ => (true, b)
  | (s, x) :: rest, b, added => match b.get? s with
    | some y => if x ≠ y then (false, added.foldl (fun b a => b.erase a) b) else wMatchLoop rest b added
    | none => wMatchLoop rest (b.set s x) (added ++ [s])

/-- `_matches` (`wolfram_physics_model.py:132-151`): the result and the dict `symbol_bindings` afterwards. -/
def wMatches (rule : List S) (relation : List Int) (b : Dict S Int) : Bool × Dict S Int :=
  if rule.length ≠ relation.length then (false, b) else wMatchLoop (rule.zip relation) b []

/-- The loop over the relations for one rule (`wolfram_physics_model.py:94-101`): the first matching relation, and the
bindings. -/
def wFind (rule : List S) : List (List Int) → Dict S Int → Option (List Int) × Dict S Int
  | [], b => (none, b)
  | r :: rs, b => match wMatches rule r b with
    | (true, b') => (some r, b')
    | (false, b') => wFind rule rs b'

/-- The variables of `topology_rule` (`wolfram_physics_model.py:80-90`). -/
structure WScan (S : Type) where
  relations : List (List Int)
  matched : List (List (List Int) × Dict S Int)
  unmatched : List (List Int)
  partially : List (List Int)
  bindings : Dict S Int
  scanning : Bool

/-- The loop body for one rule of the left-hand side, which has `k` rules (`wolfram_physics_model.py:92-107`). -/
def wRuleStep (k : Nat) (s : WScan S) (rule : List S) : WScan S :=
  let (found, b) := wFind rule s.relations s.bindings
  let relations := match found with
    | none => s.relations
    | some r => s.relations.erase r
  let partially := match found with
    | none => s.partially
    | some r => s.partially ++ [r]
  if partially.length = k then ⟨relations, s.matched ++ [(partially, b)], s.unmatched, [], b, found.isSome⟩
  else ⟨relations, s.matched, s.unmatched, partially, b, found.isSome⟩

/-- The body of the `while` loop (`wolfram_physics_model.py:89-111`). -/
def wScanOnce (lhs : List (List S)) (s : WScan S) : WScan S :=
  let s := lhs.foldl (wRuleStep lhs.length) { s with bindings := [] }
  { s with unmatched := s.unmatched ++ s.partially, partially := [] }

/-- The `while` loop (`wolfram_physics_model.py:86-111`). -/
def wScanLoop (lhs : List (List S)) : Nat → WScan S → Except Err (WScan S)
  | 0, _ => .error .outOfFuel
  | fuel + 1, s => if s.scanning then wScanLoop lhs fuel (wScanOnce lhs s) else .ok s

/-- The node of a symbol of the right-hand side (`wolfram_physics_model.py:122-125`). -/
def wSymbol (s : Int × Dict S Int) (sym : S) : (Int × Dict S Int) × Int :=
  match s.2.get? sym with
  | some x => (s, x)
  | none => ((s.1 + 1, s.2.set sym (s.1 + 1)), s.1 + 1)

/-- One relation of the right-hand side (`wolfram_physics_model.py:120-126`). -/
def wInstRel (s : Int × Dict S Int) : List S → (Int × Dict S Int) × List Int
  | [] => (s, [])
  | sym :: syms =>
    let (s, x) := wSymbol s sym
    let (s, xs) := wInstRel s syms
    (s, x :: xs)

/-- The right-hand side for one match (`wolfram_physics_model.py:119-126`). -/
def wInstOut (s : Int × Dict S Int) : List (List S) → (Int × Dict S Int) × List (List Int)
  | [] => (s, [])
  | r :: rs =>
    let (s, x) := wInstRel s r
    let (s, xs) := wInstOut s rs
    (s, x :: xs)

/-- The loop over the matches (`wolfram_physics_model.py:118-126`). -/
def wInstAll (out : List (List S)) : Int → List (List (List Int) × Dict S Int) → Int × List (List Int)
  | last, [] => (last, [])
  | last, g :: gs =>
    let (s, xs) := wInstOut (last, g.2) out
    let (last, ys) := wInstAll out s.1 gs
    (last, xs ++ ys)

/-- The rewriting of a configuration (`wolfram_physics_model.py:80-126`): the new configuration and `self.last_node` before
the network is rebuilt. -/
def wRewrite (fuel : Nat) (lhs out : List (List S)) (last : Int) (relations : List (List Int)) :
    Except Err (Int × List (List Int)) :=
  match wScanLoop lhs fuel ⟨relations, [], [], [], [], true⟩ with
  | .error e => .error e
  | .ok s =>
    let (last, new) := wInstAll out last s.matched
    .ok (last, s.relations ++ s.unmatched ++ new)

/-- `topology_rule` (`wolfram_physics_model.py:77-130`): the user state is `self.last_node`; `fuel` bounds the scans of a
configuration. -/
def wTopologyRule (fuel : List (List Int) → Nat) (lhs out : List (List S)) {V : Type} (ctx : TopCtx Int WVal V) (last : Int) :
    Except Err (TopOut Int WVal × Int) :=
  match wConfig ctx.net with
  | .error e => .error e
  | .ok relations => match wRewrite (fuel relations) lhs out last relations with
    | .error e => .error e
    | .ok (_, config) => .ok (⟨ctx.net, .fresh (wInit config).1⟩, (wInit config).2)

end
end Verif
