import Verif.Model.Evolution
import Verif.Model.Matrix
/-! # Model of the machines on a single node (demos and tests of the finite state machine, the pushdown automaton and the
Collatz sequence)

The activities are integers and the node label is 0. -/

namespace Verif

/-- The network with a single node, `from_adjacency_matrix([[1]])`
(`demos/pushdown_automata/pushdown_automata_demo.py:14`, `demos/finite_state_machine/finite_state_machine_demo.py:18`,
`demos/collatz_conjecture/collatz_conjecture_demo.py:12`, `demos/collatz_conjecture/collatz_conjecture_demo2.py:13`). -/
def singleNode : Net Nat Int := fromAdjacencyMatrix [[(1 : Int)]]

/-- A string given as `input` (`evolution.py:438-441` on a `str`): the input of timestep `t` is the string consisting of
the character at `t - 1`, which is itself a sequence (`evolution.py:269, 420-421`). -/
def strInput (s : List Char) : List (Option (Inp Char)) := s.map (fun c => some (.seq [some c]))

/-- `fsm_rule` (`demos/finite_state_machine/finite_state_machine_demo.py:25-30`); `ctx.input` is a character. -/
def fsmRule (ctx : NodeCtx Nat Int Int Char) : Int := if ctx.input = some 'p' then 0 else 1

/-- The condition `current_state == q and ctx.input == c and stack[-1] == top`
(`demos/pushdown_automata/pushdown_automata_demo.py:27, 30, 33, 36, 39`); the last operand is evaluated only if the
others hold. -/
def pdaTest (ctx : NodeCtx Nat Int Int Char) (stack : List Char) (q : Int) (c top : Char) : Except Err Bool :=
  if ctx.current = q ∧ ctx.input = some c then
    match pyGet stack (-1) with
    | .error e => .error e
    | .ok x => .ok (decide (x = top))
  else .ok false

/-- The branches of `pda_rule` in order (`demos/pushdown_automata/pushdown_automata_demo.py:27-42`): state, input and top
of the stack that are tested, what is done to the stack (`true`: `stack.append('a')`, `false`: `stack.pop()`), and the
state returned. -/
def pdaBranches : List (Int × Char × Char × Option Bool × Int) :=
  [(0, 'a', 'Z', some true, 1), (1, 'a', 'a', some true, 1), (1, 'b', 'a', some false, 2), (2, 'b', 'a', some false, 2),
   (2, '\n', 'Z', none, 3)]

/-- The stack after the action of a branch (`demos/pushdown_automata/pushdown_automata_demo.py:28, 31, 34, 37`).  The
`pop` is reached only with `'a'` on top of the stack. -/
def pdaAct (stack : List Char) : Option Bool → List Char
  | some true => stack ++ ['a']
  | some false => stack.dropLast
  | none => stack

/-- The chain of `if`/`elif` (`demos/pushdown_automata/pushdown_automata_demo.py:27-42`). -/
def pdaChain (ctx : NodeCtx Nat Int Int Char) (stack : List Char) :
    List (Int × Char × Char × Option Bool × Int) → Except Err (Int × List Char)
  | [] => .error (.exception "input rejected")
  | (q, c, top, act, q') :: bs => match pdaTest ctx stack q c top with
    | .error e => .error e
    | .ok true => .ok (q', pdaAct stack act)
    | .ok false => pdaChain ctx stack bs

/-- `pda_rule` (`demos/pushdown_automata/pushdown_automata_demo.py:25-42`); the stack is the user's state, with its top
at the end. -/
def pdaRule (ctx : NodeCtx Nat Int Int Char) (stack : List Char) : Except Err (RuleOut Nat Int Int × List Char) :=
  match pdaChain ctx stack pdaBranches with
  | .error e => .error e
  | .ok (q, stack') => .ok (⟨q, [], []⟩, stack')

/-- `activity_rule` (`demos/collatz_conjecture/collatz_conjecture_demo.py:14-20`,
`demos/collatz_conjecture/collatz_conjecture_demo2.py:16-22`).  Python's `n / 2` gives a float;
floats are taken as exact numbers here, and an even number has an integer half. -/
def collatzRule (ctx : NodeCtx Nat Int Int Int) : Int :=
  if ctx.current % 2 = 0 then ctx.current / 2 else 3 * ctx.current + 1

/-- `input` (`demos/collatz_conjecture/collatz_conjecture_demo.py:22-25`). -/
def collatzInput {σ : Type} (_t : Nat) (activities : Dict Nat Int) (_n : Net Nat Int) (u : σ) :
    Except Err (Option (Inp Int) × σ) :=
  match activities.get 0 with
  | .error e => .error e
  | .ok a => .ok (if a = 1 then none else some (.scalar 1), u)

end Verif
