/-! # Specification of the starting conditions of Langton's loops -/

namespace Verif.Spec

/-- The loop of Langton, row by row: the column in which the row starts, relative to the position of the loop, and the
states. -/
def loopRows : List (Int × List Nat) :=
  [(0, [2, 2, 2, 2, 2, 2, 2, 2]),
   (-1, [2, 1, 7, 0, 1, 4, 0, 1, 4, 2]),
   (-1, [2, 0, 2, 2, 2, 2, 2, 2, 0, 2]),
   (-1, [2, 7, 2, 0, 0, 0, 0, 2, 1, 2]),
   (-1, [2, 1, 2, 0, 0, 0, 0, 2, 1, 2]),
   (-1, [2, 0, 2, 0, 0, 0, 0, 2, 1, 2]),
   (-1, [2, 7, 2, 0, 0, 0, 0, 2, 1, 2]),
   (-1, [2, 1, 2, 2, 2, 2, 2, 2, 1, 2, 2, 2, 2, 2]),
   (-1, [2, 0, 7, 1, 0, 7, 1, 0, 7, 1, 1, 1, 1, 1, 2]),
   (0, [2, 2, 2, 2, 2, 2, 2, 2, 2, 2, 2, 2, 2])]

/-- The cells of a loop at a position, row by row. -/
def loopWrites (row col : Int) : List (Int × Int × Nat) :=
  loopRows.zipIdx.flatMap (fun p => p.1.2.zipIdx.map (fun q => (row + p.2, col + p.1.1 + q.2, q.1)))

/-- The index `k` stands for position `p` of `n` (negative indices count from the end). -/
def Addresses (n : Nat) (k : Int) (p : Nat) : Prop := p < n ∧ (k = p ∨ k + n = p)

/-- `v` is the state that the last of the writes to cell `(a, b)` leaves there, 0 if there is none. -/
def LastWrite (rows cols : Nat) (ws : List (Int × Int × Nat)) (a b v : Nat) : Prop :=
  (v = 0 ∧ ∀ w ∈ ws, ¬ (Addresses rows w.1 a ∧ Addresses cols w.2.1 b)) ∨
  ∃ before w after, ws = before ++ w :: after ∧ Addresses rows w.1 a ∧ Addresses cols w.2.1 b ∧ w.2.2 = v ∧
    ∀ w' ∈ after, ¬ (Addresses rows w'.1 a ∧ Addresses cols w'.2.1 b)

/-- The loop as a picture with an empty background; the position of the loop is row 0, column 1 of the picture. -/
def loopPicture : List (List Nat) :=
  [[0, 2, 2, 2, 2, 2, 2, 2, 2, 0, 0, 0, 0, 0, 0],
   [2, 1, 7, 0, 1, 4, 0, 1, 4, 2, 0, 0, 0, 0, 0],
   [2, 0, 2, 2, 2, 2, 2, 2, 0, 2, 0, 0, 0, 0, 0],
   [2, 7, 2, 0, 0, 0, 0, 2, 1, 2, 0, 0, 0, 0, 0],
   [2, 1, 2, 0, 0, 0, 0, 2, 1, 2, 0, 0, 0, 0, 0],
   [2, 0, 2, 0, 0, 0, 0, 2, 1, 2, 0, 0, 0, 0, 0],
   [2, 7, 2, 0, 0, 0, 0, 2, 1, 2, 0, 0, 0, 0, 0],
   [2, 1, 2, 2, 2, 2, 2, 2, 1, 2, 2, 2, 2, 2, 0],
   [2, 0, 7, 1, 0, 7, 1, 0, 7, 1, 1, 1, 1, 1, 2],
   [0, 2, 2, 2, 2, 2, 2, 2, 2, 2, 2, 2, 2, 2, 0]]

/-- Cell of the picture, 0 outside. -/
def loopAt (i j : Nat) : Nat := (loopPicture.getD i []).getD j 0

/-- The first loop 151 steps later: its arm now points upwards, the signals have moved on. -/
def motherPicture : List (List Nat) :=
  [[0, 0, 0, 0, 0, 0, 0, 0, 2, 0],
   [0, 0, 0, 0, 0, 0, 0, 2, 1, 2],
   [0, 0, 0, 0, 0, 0, 0, 2, 7, 2],
   [0, 0, 0, 0, 0, 0, 0, 2, 0, 2],
   [0, 0, 0, 0, 0, 0, 0, 2, 1, 2],
   [0, 2, 2, 2, 2, 2, 2, 2, 7, 2],
   [2, 1, 1, 1, 7, 0, 1, 7, 0, 2],
   [2, 1, 2, 2, 2, 2, 2, 2, 1, 2],
   [2, 1, 2, 0, 0, 0, 0, 2, 7, 2],
   [2, 0, 2, 0, 0, 0, 0, 2, 0, 2],
   [2, 4, 2, 0, 0, 0, 0, 2, 1, 2],
   [2, 1, 2, 0, 0, 0, 0, 2, 7, 2],
   [2, 0, 2, 2, 2, 2, 2, 2, 0, 2],
   [2, 4, 1, 0, 7, 1, 0, 7, 1, 2],
   [0, 2, 2, 2, 2, 2, 2, 2, 2, 0]]

/-- Cell of that picture, 0 outside. -/
def motherAt (i j : Nat) : Nat := (motherPicture.getD i []).getD j 0

/-- Distance from `o` forward to `x` around a ring of `n` cells. -/
def ringDist (n : Nat) (x o : Int) : Nat := ((x - o) % (n : Int)).toNat

end Verif.Spec
