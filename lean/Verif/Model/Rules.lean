import Verif.Model.Evolution
import Verif.Py.Repr
/-! # Model of `/repo/netomaton/rules/activity_rule.py`

The rules read `ctx.neighbourhood_activities` and `ctx.current_activity` only; activities are integers (numpy and
Python integers are not distinguished).  A rule is a function of the context that may raise; it makes no requests. -/

namespace Verif

section
variable {L A I : Type}

/-- `bits_to_int` (`activity_rule.py:50-62`): `enumerate(bits[::-1])`, adding `1 << shift` for every truthy item. -/
def bitsToInt (bits : List Int) : Nat :=
  (bits.reverse.zipIdx).foldl (fun (total : Nat) (p : Int × Nat) => if p.1 ≠ 0 then total + (1 <<< p.2) else total) 0

/-- `int_to_bits` (`activity_rule.py:65-77`).  A negative number raises `ValueError` (`int('b')`), and so does a
negative padding width in `np.pad`. -/
def intToBits (num : Int) (numDigits : Nat) : Except Err (List Int) :=
  if num < 0 then .error .valueError
  else
    let converted := (digitsBE 2 num.toNat).map (fun (d : Nat) => (d : Int))
    if numDigits < converted.length then .error .valueError
    else .ok (List.replicate (numDigits - converted.length) 0 ++ converted)

/-- `binary_ca_rule` (`activity_rule.py:80-113`); `nks` is `scheme == 'nks'`. -/
def binaryCaRule (rule : Int) (nks : Bool) (ctx : NodeCtx L A Int I) : Except Err Int :=
  let stateInt := bitsToInt ctx.neighbourActs
  let n := 2 ^ ctx.neighbourActs.length
  match intToBits rule n with
  | .error e => .error e
  | .ok arr => if nks then pyGet arr (((n : Int) - 1) - (stateInt : Int)) else pyGet arr (stateInt : Int)

/-- `nks_ca_rule` (`activity_rule.py:116-125`). -/
def nksCaRule (rule : Int) : NodeCtx L A Int I → Except Err Int := binaryCaRule rule true

/-- `totalistic_ca` (`activity_rule.py:5-31`), for a rule number `≥ 0` and `k ≥ 1` (for `k = 0` and `k = 1` the call of
`base_repr` raises first anyway). -/
def totalisticCa (k rule : Nat) (ctx : NodeCtx L A Int I) : Except Err Int :=
  let n := ctx.neighbourActs.length
  match baseRepr rule k with
  | .error e => .error e
  | .ok s =>
    let ruleString := zfill (n * (k - 1) + 1) s
    if n * (k - 1) + 1 < ruleString.length then .error (.exception "rule number out of range")
    else match pyGet ruleString (((n * (k - 1) : Nat) : Int) - ctx.neighbourActs.sum) with
      | .error e => .error e
      | .ok c => match intOfChar c k with
        | .error e => .error e
        | .ok d => .ok (d : Int)

/-- Items of `Counter(data)` with the highest count, in order of first occurrence (`statistics.mode`, called at
`activity_rule.py:44`). -/
def modes (vs : List Int) : List Int :=
  ((counter vs).filter (fun p => (counter vs).all (fun q => decide (q.2 ≤ p.2)))).map Prod.fst

/-- `statistics.mode` (called at `activity_rule.py:44`); `none` is `StatisticsError`.  Before Python 3.8 (`py38 = false`;
the versions the project is tested with) several most frequent items raise; from 3.8 on the first one is returned. -/
def statMode (py38 : Bool) (vs : List Int) : Option Int :=
  match modes vs with
  | [] => none
  | [m] => some m
  | m :: _ :: _ => if py38 then some m else none

/-- `majority_rule` (`activity_rule.py:34-47`).  `pick` is the random position used by `np.random.choice`, which raises
`ValueError` on an empty sequence. -/
def majorityRule (py38 : Bool) (pick : Nat) (ctx : NodeCtx L A Int I) : Except Err Int :=
  match statMode py38 ctx.neighbourActs with
  | some m => .ok m
  | none => match ctx.neighbourActs[pick % ctx.neighbourActs.length]? with
    | some v => .ok v
    | none => .error .valueError

/-- `game_of_life_rule` (`activity_rule.py:128-150`); `none` is a fall-through (Python `None`). -/
def gameOfLife? (ctx : NodeCtx L A Int I) : Option Int :=
  let total := ctx.neighbourActs.sum
  if ctx.current = 1 then
    if total - 1 < 2 then some 0
    else if total - 1 = 2 ∨ total - 1 = 3 then some 1
    else if total - 1 > 3 then some 0
    else none
  else if total = 3 then some 1
  else some 0

/-- `wireworld_rule` (`activity_rule.py:153-169`); `none` is Python's `None` for an unknown state. -/
def wireworld? (ctx : NodeCtx L A Int I) : Option Int :=
  if ctx.current = 0 then some 0
  else if ctx.current = 1 then some 2
  else if ctx.current = 2 then some 3
  else if ctx.current = 3 then
    (if ctx.neighbourActs.count 1 = 1 ∨ ctx.neighbourActs.count 1 = 2 then some 1 else some 3)
  else none

/-- A rule that may return `None`, as an activity rule on integers.  An activity `None` is not an integer; the model
reports it as a `TypeError`, and the theorems show when it does not occur (`activity_rule.py:128-169`). -/
def orNone (f : NodeCtx L A Int I → Option Int) (ctx : NodeCtx L A Int I) : Except Err Int :=
  match f ctx with
  | some v => .ok v
  | none => .error .typeError

end

end Verif
