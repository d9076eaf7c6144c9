import Verif.Py.Repr
import Verif.Py.Dict
/-! # Model of the helpers in `utils.py` and of the initial conditions of `evolution.py` -/

namespace Verif

/-- `math.factorial` (`utils.py:477`). -/
def factorial : Nat → Nat
  | 0 => 1
  | n + 1 => (n + 1) * factorial n

/-- `ncr` (`utils.py:460-478`) for integers. -/
def ncr (n r : Int) : Except Err Int :=
  if n < 0 then .error (.exception "n must be a non-negative int")
  else if r < 0 then .error (.exception "r must be a non-negative int")
  else if n < r then .ok 0
  else .ok ((factorial n.toNat / factorial r.toNat / factorial (n - r).toNat : Nat) : Int)

/-- `[int(x) for x in bin(int(a[0]))[2:]]` (`utils.py:515`) for a row of integers: `bin` of a negative number starts with
`-0b`, so the rest contains the letter `b`. -/
def binDigits (a : List Int) : Except Err (List Int) :=
  match a with
  | [] => .error .indexError
  | x :: _ => if x < 0 then .error .valueError else .ok ((digitsBE 2 x.toNat).map (fun (d : Nat) => (d : Int)))

/-- `binarize_for_plotting` (`utils.py:505-517`); `np.max` of an empty list raises `ValueError`. -/
def binarizeForPlotting (activities : List (List Int)) : Except Err (List (List Int)) :=
  match activities.mapM binDigits with
  | .error e => .error e
  | .ok [] => .error .valueError
  | .ok (row :: rows) =>
    let maxLen := ((row :: rows).map List.length).foldl max 0
    .ok ((row :: rows).map (fun a => List.replicate (maxLen - a.length) 0 ++ a))

section
variable {V L : Type}

/-- `init_simple` (`evolution.py:444-454`); `zero` is the zero of the dtype.  `np.zeros` of a negative size raises
`ValueError`. -/
def initSimple (zero : V) (size : Int) (val : V) : Except Err (List V) :=
  if size < 0 then .error .valueError
  else pySet (List.replicate size.toNat zero) (size / 2) val

/-- `init_simple2d` (`evolution.py:483-495`). -/
def initSimple2d (zero : V) (rows cols : Int) (val : V) : Except Err (List V) :=
  if rows < 0 ∨ cols < 0 then .error .valueError
  else
    let x := List.replicate rows.toNat (List.replicate cols.toNat zero)
    match pyGet x (rows / 2) with
    | .error e => .error e
    | .ok row => match pySet row (cols / 2) val with
      | .error e => .error e
      | .ok row' => match pySet x (rows / 2) row' with
        | .error e => .error e
        | .ok x' => .ok x'.flatten

/-- `init_random` (`evolution.py:457-480`).  `draw i` is the `i`-th random number; `integer` says whether the dtype is an
integer type, in which case `np.random.randint(k, ...)` raises `ValueError` for `k ≤ 0`.  Whether NumPy also does so when no number is
wanted could not be checked; the theorems on exceptions leave this case out. -/
def initRandom (size k : Int) (nRandomized : Option Int) (empty : V) (integer : Bool) (draw : Nat → V) :
    Except Err (List V) :=
  let n := nRandomized.getD size
  if n > size ∨ n < 0 then
    .error (.exception "the number of randomized sites, if specified, must be >= 0 and <= size")
  else
    let padLeft := (size - n) / 2
    let padRight := (size - n) - padLeft
    if integer ∧ k ≤ 0 then .error .valueError
    else .ok (List.replicate padLeft.toNat empty ++ (List.range n.toNat).map draw ++ List.replicate padRight.toNat empty)

/-- The row of one state in `get_activities_over_time_as_list` (`utils.py:33-38`): `sorted(ac)` sorts the labels by
`le`. -/
def activityRow [DecidableEq L] (le : L → L → Bool) (ac : Dict L V) : List V :=
  (ac.keys.mergeSort le).filterMap ac.get?

/-- `get_activities_over_time_as_list` (`utils.py:30-39`) of the activities of the states. -/
def activitiesOverTime [DecidableEq L] (le : L → L → Bool) (trajectory : List (Option (Dict L V))) : List (List V) :=
  trajectory.filterMap (fun s => match s with
    | none => none
    | some [] => none
    | some (p :: d) => some (activityRow le (p :: d)))

end
end Verif
