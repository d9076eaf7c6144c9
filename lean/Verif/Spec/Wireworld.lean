import Verif.Spec.TorusCA
/-! # Wireworld on a torus, as sets of cells -/

namespace Verif.Spec

/-- The next state of a cell: empty 0, head 1, tail 2, conductor 3. -/
def wireNext (v : Int) (l : List Int) : Int :=
  if v = 0 then 0 else if v = 1 then 2 else if v = 2 then 3 else if l.count 1 = 1 ∨ l.count 1 = 2 then 1 else 3

/-- The cell at the offset `d` from `p` on the torus. -/
def torusCell (rows cols : Nat) (p : Nat × Nat) (d : Int × Int) : Nat × Nat :=
  ((((p.1 : Int) + d.1) % (rows : Int)).toNat, (((p.2 : Int) + d.2) % (cols : Int)).toNat)

/-- The electrons on a circuit: the cells with heads and those with tails. -/
structure Electrons where
  heads : List (Nat × Nat)
  tails : List (Nat × Nat)
  deriving DecidableEq

/-- One step: the heads become tails, and the free cells of the wire next to one or two heads become heads. -/
def Electrons.step (rows cols : Nat) (wire : List (Nat × Nat)) (e : Electrons) : Electrons :=
  ⟨wire.filter (fun p => !e.heads.contains p && !e.tails.contains p &&
    ((moore8.countP fun d => e.heads.contains (torusCell rows cols p d)) == 1 ||
      (moore8.countP fun d => e.heads.contains (torusCell rows cols p d)) == 2)), e.heads⟩

/-- The electrons after `t` steps. -/
def Electrons.run (rows cols : Nat) (wire : List (Nat × Nat)) (e : Electrons) : Nat → Electrons
  | 0 => e
  | t + 1 => (Electrons.run rows cols wire e t).step rows cols wire

/-- The picture of a circuit. -/
def wirePicture (wire : List (Nat × Nat)) (e : Electrons) (a b : Nat) : Int :=
  if e.heads.contains (a, b) then 1 else if e.tails.contains (a, b) then 2 else if wire.contains (a, b) then 3 else 0

/-- The cells of a circuit drawn as a list of rows, `cols` numbers each, whose number is one of `vs`. -/
def cellsIn (cols : Nat) (l : List Int) (vs : List Int) : List (Nat × Nat) :=
  ((List.range l.length).filter fun x => vs.contains (l[x]?.getD 0)).map fun x => (x / cols, x % cols)

/-- The electrons of a circuit drawn as a list. -/
def electronsIn (cols : Nat) (l : List Int) : Electrons := ⟨cellsIn cols l [1], cellsIn cols l [2]⟩

/-- `path` is a closed wire: its cells are different, and two of them touch on the torus exactly when they follow each other. -/
structure ClosedWire (rows cols : Nat) (path : List (Nat × Nat)) : Prop where
  inside : ∀ p ∈ path, p.1 < rows ∧ p.2 < cols
  nodup : path.Nodup
  touch : ∀ i j : Nat, (hi : i < path.length) → (hj : j < path.length) →
    ((∃ d ∈ moore8, torusCell rows cols path[i] d = path[j]) ↔ j = (i + 1) % path.length ∨ i = (j + 1) % path.length)

/-- Trains of electrons on a closed wire of `n` cells: tails are exactly the cells behind heads, and there is a free cell in front of
every head. -/
structure Trains (n : Nat) (u : Nat → Int) : Prop where
  states : ∀ i, i < n → u i = 1 ∨ u i = 2 ∨ u i = 3
  behind : ∀ i, i < n → (u i = 2 ↔ u ((i + 1) % n) = 1)
  front : ∀ i, i < n → u i = 1 → u ((i + 1) % n) = 3

/-- The picture of the signals `u` on the wire. -/
def signalPicture (path : List (Nat × Nat)) (u : Nat → Int) (a b : Nat) : Int :=
  match path.findIdx? (fun p => p == (a, b)) with
  | some i => u i
  | none => 0

end Verif.Spec
