import Verif.Model.Evolution
import Verif.Model.Topology
/-! # Model of `ctrbl_rule.py` and of the table of `langtons_loop.py` -/

namespace Verif

/-- `VonNeumannNeighbourhood` (`ctrbl_rule.py:92-125`). -/
structure Hood where
  center : Nat
  top : Nat
  bottom : Nat
  left : Nat
  right : Nat
  deriving DecidableEq, Repr

/-- The neighbourhood computed for one cell (`ctrbl_rule.py:69-73`).  Python's `%` with a positive right side is
`Int.emod`; the results are not negative. -/
def hoodOf (rows cols row center : Nat) : Hood where
  center := center
  left := ((((center : Int) - (row * cols : Nat)) - 1) % (cols : Int)).toNat + row * cols
  right := ((((center : Int) - (row * cols : Nat)) + 1) % (cols : Int)).toNat + row * cols
  top := (((center : Int) - (cols : Int)) % ((rows * cols : Nat) : Int)).toNat
  bottom := (((center : Int) + (cols : Int)) % ((rows * cols : Nat) : Int)).toNat

/-- Inner loop of `_init_neighbourhood_map` (`ctrbl_rule.py:68-76`); the state is `(neighbourhood_map, idx)`. -/
def hoodRow (rows cols row : Nat) (st : Dict Nat Hood × Nat) : Dict Nat Hood × Nat :=
  (List.range cols).foldl (fun st _ => (st.1.set st.2 (hoodOf rows cols row st.2), st.2 + 1)) st

/-- `CTRBLRule._init_neighbourhood_map` (`ctrbl_rule.py:55-77`). -/
def ctrblMap (rows cols : Nat) : Dict Nat Hood :=
  ((List.range rows).foldl (fun st row => hoodRow rows cols row st) ([], 0)).1

/-- The tuple stored in the rotation system for one node (`ctrbl_rule.py:29-30`). -/
def ctrblEntry (m : Dict Nat Hood) (node : Nat) : Except Err (Nat × List Nat) :=
  match m.get node with
  | .error e => .error e
  | .ok h => .ok (node, [h.center, h.top, h.right, h.bottom, h.left])

/-- `CTRBLRule.__init__` (`ctrbl_rule.py:23-31`): the network with its rotation system. -/
def ctrblNetwork (rows cols : Nat) : Except Err (Net Nat Int) :=
  match cellularAutomaton2d rows cols 1 "von Neumann" false with
  | .error e => .error e
  | .ok net => match net.labels.mapM (ctrblEntry (ctrblMap rows cols)) with
    | .error e => .error e
    | .ok rs => match Net.setRotation (Dict.ofPairs rs) net with
      | (.error e, _) => .error e
      | (.ok (), net') => .ok net'

section
variable {A V I : Type} [DecidableEq V]

/-- `r.insert(1, r.pop(4))` (`ctrbl_rule.py:87`); `pop` raises on fewer than five entries. -/
def rotateOnce (r : List V) : Except Err (List V) :=
  match r[4]? with
  | none => .error .indexError
  | some x => let r' := r.eraseIdx 4
    .ok (r'.take 1 ++ x :: r'.drop 1)

/-- `for _ in range(k): r.insert(1, r.pop(4)); new_rule_table[tuple(r)] = image` (`ctrbl_rule.py:86-88`). -/
def addRotations (image : V) : Nat → List V → Dict (List V) V → Except Err (Dict (List V) V)
  | 0, _, table => .ok table
  | k + 1, r, table => match rotateOnce r with
    | .error e => .error e
    | .ok r' => addRotations image k r' (table.set r' image)

/-- `CTRBLRule._init_rule_table` (`ctrbl_rule.py:79-89`). -/
def initRuleTable (addRot : Bool) : List (List V × V) → Dict (List V) V → Except Err (Dict (List V) V)
  | [], table => .ok table
  | (rule, image) :: rest, table =>
    let table := table.set rule image
    match (if addRot then addRotations image 3 rule table else .ok table) with
    | .error e => .error e
    | .ok table => initRuleTable addRot rest table

/-- `CTRBLRule.activity_rule` (`ctrbl_rule.py:35-40`).  The message is formatted with five `%s`, so that a tuple of
another length would raise a `TypeError` instead. -/
def ctrblRule (table : Dict (List V) V) (c : NodeCtx Nat A V I) : Except Err V :=
  match table.get? c.neighbourActs with
  | some v => .ok v
  | none => if c.neighbourActs.length = 5 then .error (.exception "neighbourhood state not in rule table")
    else .error .typeError

end

/-- The table of `LangtonsLoop` (`langtons_loop.py:17-236`), before the rotations are added (`add_rotations=True` at
line 237). -/
def langtonRules : List (List Nat × Nat) :=
  [([0, 0, 0, 0, 0], 0), ([0, 0, 0, 0, 1], 2), ([0, 0, 0, 0, 2], 0), ([0, 0, 0, 0, 3], 0), ([0, 0, 0, 0, 5], 0),
   ([0, 0, 0, 0, 6], 3), ([0, 0, 0, 0, 7], 1), ([0, 0, 0, 1, 1], 2), ([0, 0, 0, 1, 2], 2), ([0, 0, 0, 1, 3], 2),
   ([0, 0, 0, 2, 1], 2), ([0, 0, 0, 2, 2], 0), ([0, 0, 0, 2, 3], 0), ([0, 0, 0, 2, 6], 2), ([0, 0, 0, 2, 7], 2),
   ([0, 0, 0, 3, 2], 0), ([0, 0, 0, 5, 2], 5), ([0, 0, 0, 6, 2], 2), ([0, 0, 0, 7, 2], 2), ([0, 0, 1, 0, 2], 2),
   ([0, 0, 1, 1, 2], 0), ([0, 0, 2, 0, 2], 0), ([0, 0, 2, 0, 3], 0), ([0, 0, 2, 0, 5], 0), ([0, 0, 2, 1, 2], 5),
   ([0, 0, 2, 2, 2], 0), ([0, 0, 2, 3, 2], 2), ([0, 0, 5, 2, 2], 2), ([0, 1, 2, 3, 2], 1), ([0, 1, 2, 4, 2], 1),
   ([0, 1, 2, 5, 2], 5), ([0, 1, 2, 6, 2], 1), ([0, 1, 2, 7, 2], 1), ([0, 1, 2, 7, 5], 1), ([0, 1, 4, 2, 2], 1),
   ([0, 1, 4, 3, 2], 1), ([0, 1, 4, 4, 2], 1), ([0, 1, 4, 7, 2], 1), ([0, 1, 6, 2, 5], 1), ([0, 1, 7, 2, 2], 1),
   ([0, 1, 7, 2, 5], 5), ([0, 1, 7, 5, 2], 1), ([0, 1, 7, 6, 2], 1), ([0, 1, 7, 7, 2], 1), ([0, 2, 5, 2, 7], 1),
   ([1, 0, 0, 0, 1], 1), ([1, 0, 0, 0, 6], 1), ([1, 0, 0, 0, 7], 7), ([1, 0, 0, 1, 1], 1), ([1, 0, 0, 1, 2], 1),
   ([1, 0, 0, 2, 1], 1), ([1, 0, 0, 2, 4], 4), ([1, 0, 0, 2, 7], 7), ([1, 0, 0, 5, 1], 1), ([1, 0, 1, 0, 1], 1),
   ([1, 0, 1, 1, 1], 1), ([1, 0, 1, 2, 4], 4), ([1, 0, 1, 2, 7], 7), ([1, 0, 2, 0, 2], 6), ([1, 0, 2, 1, 2], 1),
   ([1, 0, 2, 2, 1], 1), ([1, 0, 2, 2, 4], 4), ([1, 0, 2, 2, 6], 3), ([1, 0, 2, 2, 7], 7), ([1, 0, 2, 3, 2], 7),
   ([1, 0, 2, 4, 2], 4), ([1, 0, 2, 6, 2], 6), ([1, 0, 2, 6, 4], 4), ([1, 0, 2, 6, 7], 7), ([1, 0, 2, 7, 1], 0),
   ([1, 0, 2, 7, 2], 7), ([1, 0, 5, 4, 2], 7), ([1, 1, 1, 1, 2], 1), ([1, 1, 1, 2, 2], 1), ([1, 1, 1, 2, 4], 4),
   ([1, 1, 1, 2, 5], 1), ([1, 1, 1, 2, 6], 1), ([1, 1, 1, 2, 7], 7), ([1, 1, 1, 5, 2], 2), ([1, 1, 2, 1, 2], 1),
   ([1, 1, 2, 2, 2], 1), ([1, 1, 2, 2, 4], 4), ([1, 1, 2, 2, 5], 1), ([1, 1, 2, 2, 7], 7), ([1, 1, 2, 3, 2], 1),
   ([1, 1, 2, 4, 2], 4), ([1, 1, 2, 6, 2], 1), ([1, 1, 2, 7, 2], 7), ([1, 1, 3, 2, 2], 1), ([1, 2, 2, 2, 4], 4),
   ([1, 2, 2, 2, 7], 7), ([1, 2, 2, 4, 3], 4), ([1, 2, 2, 5, 4], 7), ([1, 2, 3, 2, 4], 4), ([1, 2, 3, 2, 7], 7),
   ([1, 2, 4, 2, 5], 5), ([1, 2, 4, 2, 6], 7), ([1, 2, 5, 2, 7], 5), ([2, 0, 0, 0, 1], 2), ([2, 0, 0, 0, 2], 2),
   ([2, 0, 0, 0, 4], 2), ([2, 0, 0, 0, 7], 1), ([2, 0, 0, 1, 2], 2), ([2, 0, 0, 1, 5], 2), ([2, 0, 0, 2, 1], 2),
   ([2, 0, 0, 2, 2], 2), ([2, 0, 0, 2, 3], 2), ([2, 0, 0, 2, 4], 2), ([2, 0, 0, 2, 5], 0), ([2, 0, 0, 2, 6], 2),
   ([2, 0, 0, 2, 7], 2), ([2, 0, 0, 3, 2], 6), ([2, 0, 0, 4, 2], 3), ([2, 0, 0, 5, 1], 7), ([2, 0, 0, 5, 2], 2),
   ([2, 0, 0, 5, 7], 5), ([2, 0, 0, 7, 2], 2), ([2, 0, 1, 0, 2], 2), ([2, 0, 1, 1, 2], 2), ([2, 0, 1, 2, 2], 2),
   ([2, 0, 1, 4, 2], 2), ([2, 0, 1, 7, 2], 2), ([2, 0, 2, 0, 2], 2), ([2, 0, 2, 0, 3], 2), ([2, 0, 2, 0, 5], 2),
   ([2, 0, 2, 0, 7], 3), ([2, 0, 2, 1, 2], 2), ([2, 0, 2, 1, 5], 2), ([2, 0, 2, 2, 1], 2), ([2, 0, 2, 2, 2], 2),
   ([2, 0, 2, 2, 7], 2), ([2, 0, 2, 3, 2], 1), ([2, 0, 2, 4, 2], 2), ([2, 0, 2, 4, 5], 2), ([2, 0, 2, 5, 2], 0),
   ([2, 0, 2, 5, 5], 2), ([2, 0, 2, 6, 2], 2), ([2, 0, 2, 7, 2], 2), ([2, 0, 3, 1, 2], 2), ([2, 0, 3, 2, 1], 6),
   ([2, 0, 3, 2, 2], 6), ([2, 0, 3, 4, 2], 2), ([2, 0, 4, 2, 2], 2), ([2, 0, 5, 1, 2], 2), ([2, 0, 5, 2, 1], 2),
   ([2, 0, 5, 2, 2], 2), ([2, 0, 5, 5, 2], 1), ([2, 0, 5, 7, 2], 5), ([2, 0, 6, 2, 2], 2), ([2, 0, 6, 7, 2], 2),
   ([2, 0, 7, 1, 2], 2), ([2, 0, 7, 2, 2], 2), ([2, 0, 7, 4, 2], 2), ([2, 0, 7, 7, 2], 2), ([2, 1, 1, 2, 2], 2),
   ([2, 1, 1, 2, 6], 1), ([2, 1, 2, 2, 2], 2), ([2, 1, 2, 2, 4], 2), ([2, 1, 2, 2, 6], 2), ([2, 1, 2, 2, 7], 2),
   ([2, 1, 4, 2, 2], 2), ([2, 1, 5, 2, 2], 2), ([2, 1, 6, 2, 2], 2), ([2, 1, 7, 2, 2], 2), ([2, 2, 2, 2, 7], 2),
   ([2, 2, 2, 4, 4], 2), ([2, 2, 2, 4, 6], 2), ([2, 2, 2, 7, 6], 2), ([2, 2, 2, 7, 7], 2), ([3, 0, 0, 0, 1], 3),
   ([3, 0, 0, 0, 2], 2), ([3, 0, 0, 0, 4], 1), ([3, 0, 0, 0, 7], 6), ([3, 0, 0, 1, 2], 3), ([3, 0, 0, 4, 2], 1),
   ([3, 0, 0, 6, 2], 2), ([3, 0, 1, 0, 2], 1), ([3, 0, 1, 2, 2], 0), ([3, 0, 2, 5, 1], 1), ([4, 0, 1, 1, 2], 0),
   ([4, 0, 1, 2, 2], 0), ([4, 0, 1, 2, 5], 0), ([4, 0, 2, 1, 2], 0), ([4, 0, 2, 2, 2], 1), ([4, 0, 2, 3, 2], 6),
   ([4, 0, 2, 5, 2], 0), ([4, 0, 3, 2, 2], 1), ([5, 0, 0, 0, 2], 2), ([5, 0, 0, 2, 1], 5), ([5, 0, 0, 2, 2], 5),
   ([5, 0, 0, 2, 3], 2), ([5, 0, 0, 2, 7], 2), ([5, 0, 0, 5, 2], 0), ([5, 0, 2, 0, 2], 2), ([5, 0, 2, 1, 2], 2),
   ([5, 0, 2, 1, 5], 2), ([5, 0, 2, 2, 2], 0), ([5, 0, 2, 2, 4], 4), ([5, 0, 2, 7, 2], 2), ([5, 1, 2, 1, 2], 2),
   ([5, 1, 2, 2, 2], 0), ([5, 1, 2, 4, 2], 2), ([5, 1, 2, 7, 2], 2), ([6, 0, 0, 0, 1], 1), ([6, 0, 0, 0, 2], 1),
   ([6, 0, 2, 1, 2], 0), ([6, 1, 2, 1, 2], 5), ([6, 1, 2, 1, 3], 1), ([6, 1, 2, 2, 2], 5), ([7, 0, 0, 0, 7], 7),
   ([7, 0, 1, 1, 2], 0), ([7, 0, 1, 2, 2], 0), ([7, 0, 1, 2, 5], 0), ([7, 0, 2, 1, 2], 0), ([7, 0, 2, 2, 2], 1),
   ([7, 0, 2, 2, 5], 1), ([7, 0, 2, 3, 2], 1), ([7, 0, 2, 5, 2], 5), ([7, 0, 2, 7, 2], 0)]

end Verif
