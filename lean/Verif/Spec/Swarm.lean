import Verif.Model.Swarm
/-! # Spec: particle swarms -/

namespace Verif.Spec

/-- Coordinate `c` of a vector. -/
def component (l : List Rat) (c : Nat) : Rat := l.getD c 0

/-- `p` is a best one of the positions up to time `t`. -/
def BestSoFar (f : List Rat → Rat) (xs : Nat → List Rat) (t : Nat) (p : List Rat) : Prop :=
  (∃ s, s ≤ t ∧ p = xs s) ∧ ∀ s, s ≤ t → f p ≤ f (xs s)

/-- All vectors of a particle have `dim` coordinates. -/
def Particle.Dim (dim : Nat) (a : Verif.Particle) : Prop := a.x.length = dim ∧ a.p.length = dim ∧ a.v.length = dim

/-- One move of a particle, attracted by its own best position and by `g`. -/
structure Moves (dim : Nat) (w cp cg : Rat) (rp rg : List Rat) (g : List Rat) (a b : Verif.Particle) : Prop where
  dims : Particle.Dim dim b
  velocity : ∀ c, c < dim → component b.v c =
    w * component a.v c + cp * component rp c * (component a.p c - component a.x c) + cg * component rg c * (component g c - component a.x c)
  position : ∀ c, c < dim → component b.x c = component a.x c + component b.v c

end Verif.Spec
