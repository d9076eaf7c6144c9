import Verif.Spec.CA
/-! # Spec: calls with a perturbation, and where a perturbation can be noticed -/

namespace Verif
section
variable {L A V I σ κ : Type} [DecidableEq L] [DecidableEq V] [DecidableEq κ]

/-- A call as in `Config.Ordinary`, but with the stateless perturbation `P`, if any.  Random numbers drawn by a
perturbation are a function of the node and the timestep, since it is invoked once for each. -/
structure Config.Perturbed (cfg : Config L A V I σ κ) (G : NodeCtx L A V I → Except Err V)
    (P : Option (PertCtx L V I → Except Err V)) (T : Nat) : Prop where
  rule : cfg.PureRule G
  pert : cfg.PurePert P
  top : cfg.topology = none
  input : cfg.input = .timesteps T
  key : cfg.key = none
  persist : cfg.persistActs = true
  compression : cfg.compression = false

/-- The activity after the perturbation, if any. -/
def pertValue (P : Option (PertCtx L V I → Except Err V)) (c : PertCtx L V I) : Except Err V :=
  match P with
  | none => .ok c.activity
  | some p => p c

/-- The rule followed by the perturbation, if any. -/
def thenPert (G : NodeCtx L A V I → Except Err V) (P : Option (PertCtx L V I → Except Err V)) (c : NodeCtx L A V I) :
    Except Err V :=
  match G c with
  | .error e => .error e
  | .ok v => pertValue P ⟨c.node, v, c.t, c.input⟩
end

namespace Spec

/-- State of cell `x` of elementary cellular automaton number `R` on a ring of `n` cells after `t` steps from `s`, when
cell `c` is set to `q t` at every timestep `t`. -/
def forcedEca (n R c : Nat) (q : Nat → Nat) (s : Nat → Nat) : Nat → Nat → Nat
  | 0, x => s x
  | t + 1, x => if x = c then q (t + 1) else
      ecaRule R (forcedEca n R c q s t ((x + n - 1) % n)) (forcedEca n R c q s t x) (forcedEca n R c q s t ((x + 1) % n))

/-- Number of steps from cell `x` to cell `y` of a ring of `n` cells, the shorter way. -/
def cellDist (n x y : Nat) : Nat := min ((x + n - y) % n) ((y + n - x) % n)

end Spec
end Verif
