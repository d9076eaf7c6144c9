import Verif.Model.RuleClasses
/-! # Model of the finite difference rules of `demos/continuous_time_models`

The numbers are exact rationals.  The labels are natural numbers.  `activity_of` is `evolution.py:45-46`. -/

namespace Verif
variable {A I : Type}

/-- `ctx.activity_of((ctx.node_label + d) % nx)` (`demos/continuous_time_models/burgers_equation_demo.py:43-46`, with `d` -1 and 1). -/
def activityBeside (nx : Nat) (ctx : NodeCtx Nat A Rat I) (d : Int) : Except Err Rat :=
  if nx = 0 then .error .zeroDivision else ctx.activities.get ((((ctx.node : Int) + d) % (nx : Int)).toNat)

/-- `activity_rule` of linear convection (`demos/continuous_time_models/linear_convection_demo.py:21-26`). -/
def linearConvectionRule (nx : Nat) (k dt dx : Rat) (ctx : NodeCtx Nat A Rat I) : Except Err Rat :=
  match activityBeside nx ctx (-1) with
  | .error e => .error e
  | .ok l => if dx = 0 then .error .zeroDivision else .ok (ctx.current - k * dt / dx * (ctx.current - l))

/-- `activity_rule` of nonlinear convection (`demos/continuous_time_models/nonlinear_convection_demo.py:21-26`). -/
def nonlinearConvectionRule (nx : Nat) (dt dx : Rat) (ctx : NodeCtx Nat A Rat I) : Except Err Rat :=
  match activityBeside nx ctx (-1) with
  | .error e => .error e
  | .ok l => if dx = 0 then .error .zeroDivision else .ok (ctx.current - ctx.current * dt / dx * (ctx.current - l))

/-- `activity_rule` of diffusion (`demos/continuous_time_models/diffusion_demo.py:22-28`). -/
def diffusionRule (nx : Nat) (nu dt dx : Rat) (ctx : NodeCtx Nat A Rat I) : Except Err Rat :=
  match activityBeside nx ctx (-1) with
  | .error e => .error e
  | .ok l => match activityBeside nx ctx 1 with
    | .error e => .error e
    | .ok r => if dx = 0 then .error .zeroDivision else .ok (ctx.current + nu * dt / dx ^ 2 * (r - 2 * ctx.current + l))

/-- `activity_rule` of Burgers' equation (`demos/continuous_time_models/burgers_equation_demo.py:41-47`). -/
def burgersRule (nx : Nat) (nu dt dx : Rat) (ctx : NodeCtx Nat A Rat I) : Except Err Rat :=
  match activityBeside nx ctx (-1) with
  | .error e => .error e
  | .ok l => match activityBeside nx ctx 1 with
    | .error e => .error e
    | .ok r => if dx = 0 then .error .zeroDivision else
        .ok (ctx.current - ctx.current * dt / dx * (ctx.current - l) + nu * dt / dx ^ 2 * (r - 2 * ctx.current + l))

/-- `activity_rule` of simple diffusion (`demos/continuous_time_models/simple_diffusion_demo.py:27-31`); `F` is computed before the run. -/
def simpleDiffusionRule (F : Rat) (ctx : NodeCtx Nat A Rat I) : Except Err Rat :=
  match pyGet ctx.neighbourActs 0 with
  | .error e => .error e
  | .ok l => match pyGet ctx.neighbourActs 2 with
    | .error e => .error e
    | .ok r => .ok (ctx.current + F * (r - 2 * ctx.current + l))

/-- `activity_rule` of the wave equation (`demos/continuous_time_models/wave_equation_demo.py:24-32`). -/
def waveRule (nx : Nat) (dt dx : Rat) (ctx : NodeCtx Nat A Rat I) : Except Err Rat :=
  match activityBeside nx ctx (-1) with
  | .error e => .error e
  | .ok l => match activityBeside nx ctx 1 with
    | .error e => .error e
    | .ok r => match pastActivityOf ctx ctx.node with
      | .error e => .error e
      | .ok p => if dx = 0 then .error .zeroDivision else
          .ok ((dt ^ 2 * (r - 2 * ctx.current + l)) / dx ^ 2 + (2 * ctx.current - p))

end Verif
