import Verif.Spec.Turing
/-! # What the machine of the first two Turing machine demos does -/

namespace Verif

/-- State of the head after `t` steps: it repeats every eight steps. -/
def gliderState (t : Nat) : Nat := [1, 2, 2, 1, 2, 1, 1, 1].getD (t % 8) 0

/-- Position of the head after `t` steps on a ring of `n` cells, from position `p`: in eight steps it goes right, left, left, right, left, right, right,
right, and is two cells further. -/
def gliderPos (n p t : Nat) : Nat := (p + 2 * (t / 8) + [n, n + 1, n, n - 1, n, n - 1, n, n + 1].getD (t % 8) 0) % n

/-- The cells with a 1 after `t` steps, relative to the position at the beginning of the eight steps (`n - 1` is the cell before). -/
def gliderMarks (n t : Nat) : List Nat := [[], [0], [0, 1], [0, 1], [n - 1, 0, 1], [n - 1, 0, 1], [0, 1], [1]].getD (t % 8) []

/-- The tape after `t` steps. -/
def gliderTape (n p t : Nat) : List Int :=
  (List.range n).map (fun x => if x ∈ (gliderMarks n t).map (fun k => (p + 2 * (t / 8) + k) % n) then 1 else 0)

end Verif
