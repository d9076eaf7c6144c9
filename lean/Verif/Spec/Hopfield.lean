/-! # Hebbian weights and the energy of a Hopfield net -/

namespace Verif.Spec

/-- `f 0 + … + f (n-1)`. -/
def isum (n : Nat) (f : Nat → Int) : Int :=
  match n with
  | 0 => 0
  | n + 1 => isum n f + f n

/-- `p i * p j`, 0 when the pattern is too short. -/
def prodAt (p : List Int) (i j : Nat) : Int :=
  match p[i]?, p[j]? with
  | some a, some b => a * b
  | _, _ => 0

/-- The sum over the patterns `p` that have units `i` and `j` of `p i * p j`; 0 on the diagonal. -/
def hebb (P : List (List Int)) (i j : Nat) : Int :=
  if i = j then 0
  else (P.map (fun p => prodAt p i j)).sum

/-- Twice the energy: `- Σ W i j * s i * s j`. -/
def energy2 (n : Nat) (W : Nat → Nat → Int) (s : Nat → Int) : Int :=
  - isum n (fun i => isum n (fun j => W i j * s i * s j))

/-- Unit `k` takes the sign of its field `Σ W k j * s j`, with `+1` for a field of 0. -/
def field (n : Nat) (W : Nat → Nat → Int) (s : Nat → Int) (k : Nat) : Int := isum n (fun j => W k j * s j)

/-- The states of a net in which, at step `t + 1`, the unit `pick t` is updated. -/
def hopfield (n : Nat) (W : Nat → Nat → Int) (pick : Nat → Nat) (s : Nat → Int) : Nat → Nat → Int
  | 0, x => s x
  | t + 1, x => if x = pick t then (if field n W (hopfield n W pick s t) x ≥ 0 then 1 else -1) else hopfield n W pick s t x

end Verif.Spec
