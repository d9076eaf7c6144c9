import Verif.Model.Evolution
/-! # Concrete configurations used by the examples beside the theorems -/

namespace Verif.Ex

/-- msgpack on integers. -/
def intCodec : Codec Int := ⟨fun _ => .ok (), fun x => x⟩
/-- msgpack on labels. -/
def natCodec : Codec Nat := ⟨fun _ => .ok (), fun x => x⟩

/-- The defaults of `evolve` (`evolution.py:101-103`) with no rule and one timestep; the user state is a list of numbers. -/
def base : Config Nat Int Int Int (List Int) Unit :=
  { rule := none, input := .timesteps 1, topology := none, perturbation := none, past := [],
    order := .activitiesFirst, copyNetwork := true, compression := false, persistActs := true, persistNet := true,
    memoize := false, key := none, natLabel := id, labelIdx := fun x => some (x : Int), actAttr := id,
    labelCodec := natCodec, attrCodec := intCodec, valCodec := intCodec }

/-- Directed triangle `0 → 1 → 2 → 0` with a self-loop at 0. -/
def tri : Net Nat Int :=
  Net.run Net.empty [.addEdge 0 1 [], .addEdge 1 2 [], .addEdge 2 0 [], .addEdge 0 0 []]

/-- The sum of the neighbourhood plus the timestep. -/
def sumRule (ctx : NodeCtx Nat Int Int Int) : Int := ctx.neighbourActs.sum + ctx.t

/-- A rule that logs the node it is invoked for and its timestep. -/
def logRule (ctx : NodeCtx Nat Int Int Int) (u : List Int) : Except Err (RuleOut Nat Int Int × List Int) :=
  .ok (⟨sumRule ctx, [], []⟩, u ++ [(ctx.node : Int), (ctx.t : Int)])

/-- An input function that stops when node 0 has an activity above 3. -/
def stopFn (t : Nat) (d : Dict Nat Int) (_ : Net Nat Int) : Option (Inp Int) :=
  if (d.get? 0).getD 0 > 3 then none else some (.scalar t)

/-- A perturbation that adds 10 to node 1 at timestep 1. -/
def addTen (c : PertCtx Nat Int Int) : Except Err Int :=
  .ok (if c.node = 1 ∧ c.t = 1 then c.activity + 10 else c.activity)

/-- The function `p` as a perturbation. -/
def pertOf (p : PertCtx Nat Int Int → Except Err Int) (c : PertCtx Nat Int Int) (u : List Int) :
    Except Err (Int × List Int) :=
  match p c with
  | .error e => .error e
  | .ok v => .ok (v, u)

/-- Observed activities of a run. -/
def runActs (fuel : Nat) (cfg : Config Nat Int Int Int (List Int) Unit) (init : List Int) (n : Net Nat Int) :
    Except Err (List (Option (Dict Nat Int))) :=
  match evolve fuel cfg (some (.list init)) 0 ⟨[n], []⟩ with
  | .error e => .error e
  | .ok res => .ok ((List.range res.states.length).map (fun t => res.acts cfg t))

end Verif.Ex
