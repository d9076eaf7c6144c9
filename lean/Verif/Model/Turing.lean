import Verif.Model.Evolution
import Verif.Model.Topology
import Verif.Py.Index
/-! # Model of `turing_machine.py` -/

namespace Verif
section
variable {Q S A : Type} [DecidableEq Q] [DecidableEq S]

/-- The rule table: `rule_table[head_state][symbol] = (next_head_state, value_to_write, direction)`
(`turing_machine.py:30, 45, 71, 92`). -/
abbrev TMTable (Q S : Type) := Dict Q (Dict S (Q × S × Int))

/-- `rule_table[head_state][symbol]`; `none` when either lookup raises `KeyError` (`turing_machine.py:45, 92`). -/
def TMTable.rule? (table : TMTable Q S) (q : Q) (s : S) : Option (Q × S × Int) :=
  match table.get? q with
  | none => none
  | some row => row.get? s

/-! ## `HeadCentricTuringMachine` -/

/-- The attributes that change: `_tape_history`, `_head_pos`, `_halt` (`turing_machine.py:70-77`). -/
structure HeadTM (S : Type) where
  tapes : List (List S)
  pos : Int
  halt : Bool
  deriving DecidableEq, Repr

/-- `HeadCentricTuringMachine.__init__` (`turing_machine.py:66-77`): the object and `initial_conditions`. -/
def headInit (tape : List S) (q : Q) (pos : Int) (terminating : Option Q) (maxTimesteps : Option Int) :
    Except Err (HeadTM S × List (Q × Int)) :=
  if terminating.isNone && maxTimesteps.isNone then
    .error (.exception "a terminating state or the max number of timesteps must be specified")
  else .ok (⟨[tape], pos, false⟩, [(q, pos)])

/-- `HeadCentricTuringMachine.network` (`turing_machine.py:79-82`). -/
def headNetwork : Net Nat Int := fromAdjacencyMatrix [[1]]

/-- `_next_pos` (`turing_machine.py:105-113`); `LEFT = 0`, `STAY = 1`, `RIGHT = 2` (`turing_machine.py:8-10`). -/
def nextPos (direction pos : Int) (len : Nat) : Except Err Int :=
  if direction = 0 then (if len = 0 then .error .zeroDivision else .ok ((pos - 1) % (len : Int)))
  else if direction = 2 then (if len = 0 then .error .zeroDivision else .ok ((pos + 1) % (len : Int)))
  else if direction = 1 then .ok pos
  else .error (.exception "unsupported direction")

/-- `HeadCentricTuringMachine.activity_rule` (`turing_machine.py:88-103`).  An input of `None` is not a key of the
table. -/
def headRule (table : TMTable Q S) (terminating : Option Q) (ctx : NodeCtx Nat A (Q × Int) S) (u : HeadTM S) :
    Except Err (RuleOut Nat A (Q × Int) × HeadTM S) :=
  match ctx.input.bind (fun s => table.rule? ctx.current.1 s) with
  | none => .error (.exception "no rule defined")
  | some (q, val, direction) =>
    match u.tapes.getLast? with
    | none => .error .indexError
    | some tape =>
      match pySet tape ctx.current.2 val with
      | .error e => .error e
      | .ok tape' =>
        match nextPos direction ctx.current.2 tape'.length with
        | .error e => .error e
        | .ok pos => .ok (⟨(q, pos), [], []⟩,
            ⟨u.tapes ++ [tape'], pos, if terminating = some q then true else u.halt⟩)

/-- `HeadCentricTuringMachine.input_function` (`turing_machine.py:115-122`).  `asInp` says how `evolve` sees a symbol as
an input: a number as itself, a string as the sequence of its characters. -/
def headInput {N : Type} (asInp : S → Inp S) (maxTimesteps : Option Int) (_t : Nat) (_a : Dict Nat (Q × Int)) (_n : N)
    (u : HeadTM S) : Except Err (Option (Inp S) × HeadTM S) :=
  if maxTimesteps = some (u.tapes.length : Int) then .ok (none, u)
  else if u.halt then .ok (none, u)
  else match u.tapes.getLast? with
    | none => .error .indexError
    | some tape => match pyGet tape u.pos with
      | .error e => .error e
      | .ok s => .ok (some (asInp s), u)

/-! ## `TapeCentricTuringMachine` -/

/-- The attributes `_head_history` and `_current_timestep` (`turing_machine.py:28-32`). -/
structure TapeTM (Q : Type) where
  history : List (Q × Nat)
  timestep : Nat
  deriving DecidableEq, Repr

/-- `TapeCentricTuringMachine.__init__` (`turing_machine.py:28-32`). -/
def tapeInit (q : Q) (pos : Nat) : TapeTM Q := ⟨[(q, pos)], 1⟩

/-- `TapeCentricTuringMachine.activity_rule` (`turing_machine.py:38-50`).  The index of the history is `timestep - 1`;
timesteps start at 1. -/
def tapeRule {I : Type} (table : TMTable Q S) (ctx : NodeCtx Nat A S I) (u : TapeTM Q) :
    Except Err (RuleOut Nat A S × TapeTM Q) :=
  let u : TapeTM Q := if ctx.t ≠ u.timestep then { u with timestep := ctx.t } else u
  match pyGet u.history ((u.timestep : Int) - 1) with
  | .error e => .error e
  | .ok (q, pos) =>
    if ctx.node = pos then
      match table.rule? q ctx.current with
      | none => .error (.exception "no rule defined")
      | some (q', val, direction) =>
        match pyGet ctx.neighbours direction with
        | .error e => .error e
        | .ok pos' => .ok (⟨val, [], []⟩, { u with history := u.history ++ [(q', pos')] })
    else .ok (⟨ctx.current, [], []⟩, u)

/-- `TapeCentricTuringMachine.network` (`turing_machine.py:34-36`). -/
def tapeNetwork (n : Nat) : Except Err (Net Nat Int) := cellularAutomaton n 1 true

end
end Verif
