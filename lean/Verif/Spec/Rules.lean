import Verif.Model.Rules
/-! # What the rules of `/repo/netomaton/rules/activity_rule.py` are meant to compute

Independent of the way the code computes it (strings, arrays, bit shifts). -/

namespace Verif

/-- Digit number `s` (0 is the least significant) of `x` in base `k`. -/
def digit (k x s : Nat) : Nat := x / k ^ s % k

/-- The number written by the binary digits `bs`, most significant first. -/
def numeral (bs : List Int) : Int := bs.foldl (fun a b => 2 * a + b) 0

/-- All cells are 0 or 1. -/
def Binary (vs : List Int) : Prop := ∀ v ∈ vs, v = 0 ∨ v = 1

/-- All cells are in `0..k-1`. -/
def Colours (k : Nat) (vs : List Int) : Prop := ∀ v ∈ vs, 0 ≤ v ∧ v < (k : Int)

/-- `v` occurs in `vs` and nothing occurs more often. -/
def MostFrequent (vs : List Int) (v : Int) : Prop := v ∈ vs ∧ ∀ w, vs.count w ≤ vs.count v

/-- Conway's rule: a dead cell with exactly three live neighbours becomes alive, a live cell with two or three stays
alive, all others are dead. -/
def conway (alive : Bool) (liveNeighbours : Nat) : Bool :=
  if alive then liveNeighbours == 2 || liveNeighbours == 3 else liveNeighbours == 3

end Verif
