import Verif.Model.Evolution
/-! # Model: the particle swarm demos (`demos/optimizing_particle_swarms`) -/

namespace Verif

/-- State of a node: current solution, its best solution, velocity (`pso_demo.py:19-22`, `pso_local_demo.py:21-24`).
Simplified: vectors as lists of exact rationals. -/
structure Particle where
  x : List Rat
  p : List Rat
  v : List Rat
  deriving DecidableEq

/-- `inertia_weight`, `cognitive_coefficient`, `social_coefficient` (`pso_demo.py:27-29`, `pso_local_demo.py:29-31`, `pso_dynamic_demo.py:38-40`). -/
structure Coeffs where
  inertia : Rat
  cognitive : Rat
  social : Rat

/-- Sum of vectors of equal length, as numpy does it (`pso_demo.py:58-64`); the other lengths, for which numpy raises or broadcasts, do not occur. -/
def vadd (a b : List Rat) : List Rat := List.zipWith (· + ·) a b
/-- Difference of vectors (`pso_demo.py:60-61`). -/
def vsub (a b : List Rat) : List Rat := List.zipWith (· - ·) a b
/-- Elementwise product of vectors (`pso_demo.py:60-61`). -/
def vmul (a b : List Rat) : List Rat := List.zipWith (· * ·) a b

/-- The new velocity (`pso_demo.py:55-62`, `pso_local_demo.py:57-64`, `pso_dynamic_demo.py:65-72`), with the draws `rp` and `rg`: the matrix with the three
columns, times the coefficients. -/
def psoVelocity (k : Coeffs) (rp rg : List Rat) (a : Particle) (g : List Rat) : List Rat :=
  vadd (vadd (a.v.map (· * k.inertia)) ((vmul rp (vsub a.p a.x)).map (· * k.cognitive))) ((vmul rg (vsub g a.x)).map (· * k.social))

section
variable {L A I : Type}

/-- `activity_rule` of the global version (`pso_demo.py:51-72`).  The user's state is the global variable `g`; `draws t i` are the numbers drawn for node
`i` at timestep `t`. -/
def psoRule (f : List Rat → Rat) (k : Coeffs) (draws : Nat → L → List Rat × List Rat) (ctx : NodeCtx L A Particle I) (u : Option (List Rat)) :
    Except Err (RuleOut L A Particle × Option (List Rat)) :=
  match u with
  | none => .error .typeError
  | some g =>
    let a := ctx.current
    let r := draws ctx.t ctx.node
    let v := psoVelocity k r.1 r.2 a g
    let x := vadd a.x v
    if f x < f a.p then .ok (⟨⟨x, x, v⟩, [], []⟩, if f x < f g then some x else some g)
    else .ok (⟨⟨x, a.p, v⟩, [], []⟩, some g)

/-- `input` of the global version (`pso_demo.py:74-78`): prints `f(g)`, and stops at `timesteps`. -/
def psoInput (T : Nat) : Nat → Dict L Particle → Net L A → Option (List Rat) → Except Err (Option (Inp (Dict L Particle)) × Option (List Rat)) :=
  fun t acts _ u => match u with
    | none => .error .typeError
    | some g => .ok (if t = T then none else some (.scalar acts), some g)

/-- The initial conditions and the initial `g` (`pso_demo.py:26, 40-48`), from the drawn positions and velocities of the nodes. -/
def psoStart (f : List Rat → Rat) (drawn : List (L × List Rat × List Rat)) : Dict L Particle × Option (List Rat) :=
  (drawn.map (fun e => (e.1, ⟨e.2.1, e.2.1, e.2.2⟩)), drawn.foldl (fun g e => match g with
    | none => some e.2.1
    | some g => if f e.2.1 < f g then some e.2.1 else some g) none)

/-- The best solution of a list of particles (`pso_local_demo.py:52-55, 75-78`, `pso_dynamic_demo.py:60-63, 88-91`). -/
def bestSolution (f : List Rat → Rat) (l : List Particle) : Option (List Rat) :=
  l.foldl (fun g a => match g with
    | none => some a.p
    | some g => if f a.p < f g then some a.p else some g) none

/-- `activity_rule` of the local and dynamic versions (`pso_local_demo.py:48-71`, `pso_dynamic_demo.py:56-79`).  Without neighbours `g` is `None` and
`g - x_i` raises. -/
def psoLocalRule (f : List Rat → Rat) (k : Coeffs) (draws : Nat → L → List Rat × List Rat) (ctx : NodeCtx L A Particle I) : Except Err Particle :=
  match bestSolution f ctx.neighbourActs with
  | none => .error .typeError
  | some g =>
    let a := ctx.current
    let r := draws ctx.t ctx.node
    let v := psoVelocity k r.1 r.2 a g
    let x := vadd a.x v
    if f x < f a.p then .ok ⟨x, x, v⟩ else .ok ⟨x, a.p, v⟩

/-- `input` of the local and dynamic versions (`pso_local_demo.py:74-83`, `pso_dynamic_demo.py:87-96`). -/
def psoLocalInput {σ : Type} (f : List Rat → Rat) (T : Nat) : Nat → Dict L Particle → Net L A → σ → Except Err (Option (Inp (Dict L Particle)) × σ) :=
  fun t acts _ u => match bestSolution f (acts.map Prod.snd) with
    | none => .error .typeError
    | some _ => .ok (if t = T then none else some (.scalar acts), u)

/-- `topology_rule` of the dynamic version (`pso_dynamic_demo.py:82-84`): a new network, drawn at random. -/
def psoTopology {σ : Type} (nets : Nat → Net L A) (ctx : TopCtx L A Particle) (u : σ) : Except Err (TopOut L A × σ) :=
  .ok (⟨ctx.net, .fresh (nets ctx.t)⟩, u)

end

/-- The six-hump camel function (`pso_demo.py:5-8`); other lengths cannot be unpacked.  Simplified: exact arithmetic. -/
def camel : List Rat → Rat
  | [x1, x2] => (4 - (21 / 10) * x1 ^ 2 + x1 ^ 4 / 3) * x1 ^ 2 + x1 * x2 + (-4 + 4 * x2 ^ 2) * x2 ^ 2
  | _ => 0

/-- The sphere function (`pso_local_demo.py:5-7`, `pso_dynamic_demo.py:6-8`). -/
def sphere (x : List Rat) : Rat := (x.map (fun c => c ^ 2)).sum

end Verif
