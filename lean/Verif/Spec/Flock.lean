import Verif.Model.Flock
/-! # What a flock is -/

namespace Verif.Spec

/-- The boids are less than `r` apart. -/
def BoidsNear (a b : Boid) (r : Rat) : Bool := decide ((a.x - b.x) ^ 2 + (a.y - b.y) ^ 2 < r ^ 2)

/-- Towards the mean of the positions `c` and velocities `w` of the others, for a boid with coordinate `x` and velocity `v`. -/
def cohesion (centering matching x v : Rat) (c w : List Rat) : Rat :=
  if c = [] then 0 else (c.sum / c.length - x) * centering + (w.sum / w.length - v) * matching

/-- Back into the window. -/
def turning (low high turn x : Rat) : Rat := (if high < x then -turn else 0) + (if x < low then turn else 0)

/-- The wish of a boid: cohesion and alignment with the boids further away than the protected range, separation from the nearer ones, turning. -/
def wish (p : FlockParams) (a : Boid) (nbs : List Boid) : Rat × Rat :=
  let near := nbs.filter (fun b => BoidsNear a b p.protectedRange)
  let far := nbs.filter (fun b => !BoidsNear a b p.protectedRange)
  (a.vx + cohesion p.centering p.matching a.x a.vx (far.map Boid.x) (far.map Boid.vx) + (near.map (fun b => a.x - b.x)).sum * p.avoid
      + turning p.low p.high p.turn a.x,
   a.vy + cohesion p.centering p.matching a.y a.vy (far.map Boid.y) (far.map Boid.vy) + (near.map (fun b => a.y - b.y)).sum * p.avoid
      + turning p.low p.high p.turn a.y)

/-- The factor that brings speed `s` between `lo` and `hi`. -/
def limitFactor (lo hi s : Rat) : Rat := if s < lo then lo / s else if hi < s then hi / s else 1

/-- The speed a boid wishes for. -/
def wishSpeed (p : FlockParams) (root : Rat → Rat) (a : Boid) (nbs : List Boid) : Rat :=
  root ((wish p a nbs).1 * (wish p a nbs).1 + (wish p a nbs).2 * (wish p a nbs).2)

/-- The next state of a boid that sees `nbs`. -/
def boidStep (p : FlockParams) (root : Rat → Rat) (a : Boid) (nbs : List Boid) : Boid :=
  let k := limitFactor p.minSpeed p.maxSpeed (wishSpeed p root a nbs)
  let v := wish p a nbs
  ⟨a.x + k * v.1, a.y + k * v.2, k * v.1, k * v.2⟩

/-- The boids that boid `j` sees in the flock `f`: those *with a smaller number* within visual range. -/
def seen (p : FlockParams) (f : Nat → Boid) (j : Nat) : List Boid :=
  ((List.range j).filter (fun i => BoidsNear (f i) (f j) p.visualRange)).map f

/-- The flock. -/
def flock (p : FlockParams) (root : Rat → Rat) (start : Nat → Boid) : Nat → Nat → Boid
  | 0 => start
  | t + 1 => fun j => boidStep p root (flock p root start t j) (seen p (flock p root start t) j)

/-- For how many timesteps up to `t` boids `i` and `j` have been within visual range without interruption. -/
def streak (p : FlockParams) (f : Nat → Nat → Boid) (i j : Nat) : Nat → Nat
  | 0 => 0
  | t + 1 => if BoidsNear (f t i) (f t j) p.visualRange then streak p f i j t + 1 else 0

end Verif.Spec
