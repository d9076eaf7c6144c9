import Verif.Model.Evolution
/-! # Model of the flocking demo (`demos/flocking/flocking_demo.py`)

Numbers are exact rationals; the code uses floats. -/

namespace Verif

/-- The state of a boid (`flocking_demo.py:76, 80`). -/
structure Boid where
  x : Rat
  y : Rat
  vx : Rat
  vy : Rat
  deriving DecidableEq

/-- The parameters of the demo (`flocking_demo.py:60-67`), and the bounds of `flocking_demo.py:113-120`. -/
structure FlockParams where
  visualRange : Rat
  protectedRange : Rat
  turn : Rat
  centering : Rat
  avoid : Rat
  matching : Rat
  maxSpeed : Rat
  minSpeed : Rat
  high : Rat
  low : Rat

/-- The parameters of the demo (`flocking_demo.py:60-67, 113-120`). -/
def FlockParams.demo : FlockParams := ⟨70, 12, 2, 5 / 10000, 5 / 100, 5 / 100, 4, 3, 450, 50⟩

/-- `dist < r` for the distance of two boids (`flocking_demo.py:89-91, 143-145`), without the square root. -/
def Boid.nearer (a b : Boid) (r : Rat) : Bool :=
  decide (0 < r ∧ (a.x - b.x) * (a.x - b.x) + (a.y - b.y) * (a.y - b.y) < r * r)

/-- The variables of the loop of `activity_rule` (`flocking_demo.py:86`). -/
structure FlockSums where
  xAvg : Rat
  yAvg : Rat
  vxAvg : Rat
  vyAvg : Rat
  closeDx : Rat
  closeDy : Rat
  visual : Nat

/-- The body of the loop of `activity_rule` (`flocking_demo.py:88-99`). -/
def flockAdd (p : FlockParams) (a : Boid) (s : FlockSums) (b : Boid) : FlockSums :=
  if a.nearer b p.protectedRange then { s with closeDx := s.closeDx + (a.x - b.x), closeDy := s.closeDy + (a.y - b.y) }
  else { s with xAvg := s.xAvg + b.x, yAvg := s.yAvg + b.y, vxAvg := s.vxAvg + b.vx, vyAvg := s.vyAvg + b.vy, visual := s.visual + 1 }

/-- The velocity before its length is limited (`flocking_demo.py:101-120`). -/
def flockVelocity (p : FlockParams) (a : Boid) (s : FlockSums) : Rat × Rat :=
  let vx := if s.visual > 0 then a.vx + (s.xAvg / s.visual - a.x) * p.centering + (s.vxAvg / s.visual - a.vx) * p.matching else a.vx
  let vy := if s.visual > 0 then a.vy + (s.yAvg / s.visual - a.y) * p.centering + (s.vyAvg / s.visual - a.vy) * p.matching else a.vy
  let vx := vx + s.closeDx * p.avoid
  let vy := vy + s.closeDy * p.avoid
  let vy := if a.y > p.high then vy - p.turn else vy
  let vx := if a.x > p.high then vx - p.turn else vx
  let vx := if a.x < p.low then vx + p.turn else vx
  let vy := if a.y < p.low then vy + p.turn else vy
  (vx, vy)

/-- `activity_rule` (`flocking_demo.py:83-131`); `root` is `np.sqrt`.  With speed zero below the minimum numpy warns and goes on with `nan`, which
rationals do not have: the model reports it as an error. -/
def flockRule {A I : Type} (p : FlockParams) (root : Rat → Rat) (ctx : NodeCtx Nat A Boid I) : Except Err Boid :=
  let a := ctx.current
  let (vx, vy) := flockVelocity p a (ctx.neighbourActs.foldl (flockAdd p a) ⟨0, 0, 0, 0, 0, 0, 0⟩)
  let speed := root (vx * vx + vy * vy)
  if speed = 0 ∧ (speed < p.minSpeed ∨ speed > p.maxSpeed) then .error (.exception "nan") else
  let (wx, wy) := if speed < p.minSpeed then (vx / speed * p.minSpeed, vy / speed * p.minSpeed) else (vx, vy)
  let (wx, wy) := if speed > p.maxSpeed then (wx / speed * p.maxSpeed, wy / speed * p.maxSpeed) else (wx, wy)
  .ok ⟨a.x + wx, a.y + wy, wx, wy⟩

/-- The body of the loops of `topology_rule` (`flocking_demo.py:140-149`). -/
def flockLink {A : Type} (p : FlockParams) (acts : Dict Nat Boid) (new : Net Nat A) (q : Nat × Nat) : Except Err (Net Nat A) :=
  match acts.get q.1 with
  | .error e => .error e
  | .ok a => match acts.get q.2 with
    | .error e => .error e
    | .ok b => if a.nearer b p.visualRange then
        match Net.addEdge q.1 q.2 [] new with
        | (.error e, _) => .error e
        | (.ok (), new') => .ok new'
      else if new.hasEdge q.1 q.2 then
        match Net.removeEdge q.1 q.2 new with
        | (.error e, _) => .error e
        | (.ok (), new') => .ok new'
      else .ok new

/-- The pairs of the loops of `topology_rule` (`flocking_demo.py:138-139`). -/
def flockPairs (n : Nat) : List (Nat × Nat) :=
  (List.range n).flatMap (fun i => (List.range' (i + 1) (n - (i + 1))).map (fun j => (i, j)))

/-- `topology_rule` (`flocking_demo.py:134-151`). -/
def flockTopology {A σ : Type} (p : FlockParams) (cl : Codec Nat) (ca : Codec A) (ctx : TopCtx Nat A Boid) (u : σ) : Except Err (TopOut Nat A × σ) :=
  match ctx.net.copy cl ca with
  | .error e => .error e
  | .ok new => match (flockPairs ctx.net.size).foldlM (flockLink p ctx.activities) new with
    | .error e => .error e
    | .ok new' => .ok (⟨ctx.net, .fresh new'⟩, u)

/-- `extract_frames` (`flocking_demo.py:42-54`) on the activities of the states. -/
def flockFrames (states : List (Dict Nat Boid)) : List (List (Rat × Rat)) × List (List (Rat × Rat)) :=
  (states.map (fun d => d.map (fun e => (e.2.x, e.2.y))), states.map (fun d => d.map (fun e => (e.2.vx, e.2.vy))))

end Verif
