import Verif.Model.Rules
/-! # Model of `/repo/netomaton/rule_tables.py`

Tables are dicts from strings (lists of characters) to cell states.  Random numbers are parameters: every draw gets its
own, arbitrary, value, so a theorem about all parameters covers every sequence of random numbers.  Floating point
numbers are exact rationals. -/

namespace Verif

/-- A rule table (`rule_tables.py:9-11`). -/
abbrev Table := Dict (List Char) Int

/-- `random.choice(seq)` with the random position `c`: `IndexError` on an empty sequence
(`rule_tables.py:67, 110, 126, 128`). -/
def choice {α : Type} (c : Nat) (xs : List α) : Except Err α :=
  match xs[c % xs.length]? with
  | some x => .ok x
  | none => .error .indexError

/-- `table_rule` (`rule_tables.py:6-21`). -/
def tableRule {L A I : Type} (table : Table) (ctx : NodeCtx L A Int I) : Except Err Int :=
  let stateRepr := (ctx.neighbourActs.map strInt).flatten
  if !(table.has stateRepr) then .error (.exception "could not find state in table")
  else table.get stateRepr

/-- `[np.base_repr(i, k).zfill(n) for i in range(0, k**n)]` (`rule_tables.py:39-42`), for the numbers `is`. -/
def stateStrings (k n : Nat) : List Nat → Except Err (List (List Char))
  | [] => .ok []
  | i :: is => match baseRepr i k with
    | .error e => .error e
    | .ok s => match stateStrings k n is with
      | .error e => .error e
      | .ok ss => .ok (zfill n s :: ss)

/-- Arguments of `random_rule_table` (`rule_tables.py:24`) and the random numbers: `rndQ` is `np.random.randint(k)`
(`rule_tables.py:47`), `draw i` and `pick i` are the values used for the `i`-th neighbourhood state
(`rule_tables.py:63, 67`; `pick` is the position chosen by `random.choice`). -/
structure RandTableArgs where
  k : Nat
  r : Nat
  lambdaVal : Option Rat
  quiescent : Option Int
  strong : Bool
  isotropic : Bool
  rndQ : Nat
  draw : Nat → Rat
  pick : Nat → Nat

/-- `[x for x in range(0, k) if x != quiescent_state]` (`rule_tables.py:50, 127`). -/
def otherStates (k : Nat) (q : Int) : List Int :=
  ((List.range k).map (fun (x : Nat) => (x : Int))).filter (fun x => decide (x ≠ q))

/-- The cell state chosen for one neighbourhood state, and whether `quiescent_state_count` is increased
(`rule_tables.py:53-67`). -/
def chooseCell (a : RandTableArgs) (lam : Rat) (q : Int) (table : Table) (i : Nat) (state : List Char) :
    Except Err (Int × Bool) :=
  if a.strong && uniform state then
    match state with
    | [] => .error .indexError
    | c :: _ => match intOfChar c a.k with
      | .error e => .error e
      | .ok d => .ok ((d : Int), decide ((d : Int) = q))
  else
    match (if a.isotropic then table.get? state.reverse else none) with
    | some v => .ok (v, decide (v = q))
    | none =>
      if a.draw i < 1 - lam then .ok (q, true)
      else match choice (a.pick i) (otherStates a.k q) with
        | .error e => .error e
        | .ok v => .ok (v, false)

/-- The loop of `random_rule_table` (`rule_tables.py:52-68`): `i` counts the states, `count` is
`quiescent_state_count`. -/
def fillTable (a : RandTableArgs) (lam : Rat) (q : Int) :
    List (List Char) → Nat → Table → Nat → Except Err (Table × Nat)
  | [], _, table, count => .ok (table, count)
  | s :: ss, i, table, count => match chooseCell a lam q table i s with
    | .error e => .error e
    | .ok (v, b) => fillTable a lam q ss (i + 1) (table.set s v) (if b then count + 1 else count)

/-- The default of `lambda_val` (`rule_tables.py:44-45`). -/
def effectiveLambda (a : RandTableArgs) : Except Err Rat :=
  match a.lambdaVal with
  | some l => .ok l
  | none => if a.k = 0 then .error .zeroDivision else .ok (1 - 1 / (a.k : Rat))

/-- The default of `quiescent_state` (`rule_tables.py:46-47`). -/
def effectiveQuiescent (a : RandTableArgs) : Except Err Int :=
  match a.quiescent with
  | some q => .ok q
  | none => if a.k = 0 then .error .valueError else .ok ((a.rndQ % a.k : Nat) : Int)

/-- `random_rule_table` (`rule_tables.py:24-70`).  The neighbourhood strings are made first, so a base outside
`2..36` raises there unless there is no neighbourhood (`k = 0`). -/
def randomRuleTable (a : RandTableArgs) : Except Err (Table × Rat × Int) :=
  let n := 2 * a.r + 1
  match stateStrings a.k n (List.range (a.k ^ n)) with
  | .error e => .error e
  | .ok states =>
    match effectiveLambda a with
    | .error e => .error e
    | .ok lam =>
      match effectiveQuiescent a with
      | .error e => .error e
      | .ok q =>
        if ¬ (0 ≤ q ∧ q ≤ (a.k : Int) - 1) then .error (.exception "quiescent state must be a number in {0,...,k - 1}")
        else match fillTable a lam q states 0 [] 0 with
          | .error e => .error e
          | .ok (table, count) => .ok (table, (((a.k ^ n : Nat) : Rat) - (count : Rat)) / ((a.k ^ n : Nat) : Rat), q)

/-- Arguments of `table_walk_through` (`rule_tables.py:73`) and the random positions: `pickState i`, `pickOther i` are
used in iteration `i` (`rule_tables.py:110, 126, 128`). -/
structure WalkArgs where
  lambdaVal : Rat
  k : Nat
  r : Nat
  quiescent : Int
  strong : Bool
  isotropic : Bool
  pickState : Nat → Nat
  pickOther : Nat → Nat

/-- `actual_lambda()` (`rule_tables.py:91-94`). -/
def actualLambda (a : WalkArgs) (table : Table) : Except Err Rat :=
  let n := 2 * a.r + 1
  if a.k ^ n = 0 then .error .zeroDivision
  else .ok ((((a.k ^ n : Nat) : Rat) - ((table.values.count a.quiescent : Nat) : Rat)) / ((a.k ^ n : Nat) : Rat))

/-- The states that may be changed (`rule_tables.py:103-107, 120-123`): those mapped to another state (`reduce`) or to
the quiescent state, without the uniform ones under strong quiescence. -/
def candidates (a : WalkArgs) (reduce : Bool) (table : Table) : List (List Char) :=
  let c := table.keys.filter (fun s =>
    if reduce then decide (table.get? s ≠ some a.quiescent) else decide (table.get? s = some a.quiescent))
  if a.strong then c.filter (fun s => !uniform s) else c

/-- The change of one entry (`rule_tables.py:110-114, 126-131`). -/
def perturbTable (a : WalkArgs) (reduce : Bool) (i : Nat) (cands : List (List Char)) (table : Table) :
    Except Err Table :=
  match choice (a.pickState i) cands with
  | .error e => .error e
  | .ok s =>
    match (if reduce then (.ok a.quiescent : Except Err Int)
           else choice (a.pickOther i) (otherStates a.k a.quiescent)) with
    | .error e => .error e
    | .ok v =>
      let t1 := table.set s v
      .ok (if a.isotropic then t1.set s.reverse v else t1)

/-- `actual_lambda() > lambda_val`, respectively `<` (`rule_tables.py:101, 118`). -/
def notReached (a : WalkArgs) (reduce : Bool) (lam : Rat) : Bool :=
  if reduce then decide (a.lambdaVal < lam) else decide (lam < a.lambdaVal)

/-- The `while` loops (`rule_tables.py:100-114, 117-131`), cut off after `fuel` iterations. -/
def walkLoop (a : WalkArgs) (reduce : Bool) : Nat → Nat → Table → Except Err Table
  | 0, _, _ => .error .outOfFuel
  | fuel + 1, attempts, table => match actualLambda a table with
    | .error e => .error e
    | .ok lam =>
      if notReached a reduce lam = true ∧ attempts < table.length then
        if (candidates a reduce table).length = 0 then .ok table
        else match perturbTable a reduce attempts (candidates a reduce table) table with
          | .error e => .error e
          | .ok table' => walkLoop a reduce fuel (attempts + 1) table'
      else .ok table

/-- `table_walk_through` (`rule_tables.py:73-132`). -/
def tableWalkThrough (fuel : Nat) (a : WalkArgs) (table : Table) : Except Err (Table × Rat) :=
  match actualLambda a table with
  | .error e => .error e
  | .ok lam =>
    if lam = a.lambdaVal then .ok (table, lam)
    else
      match walkLoop a (decide (a.lambdaVal < lam)) fuel 0 table with
      | .error e => .error e
      | .ok table' => match actualLambda a table' with
        | .error e => .error e
        | .ok lam' => .ok (table', lam')

end Verif
