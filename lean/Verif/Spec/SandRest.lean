import Verif.Spec.Sandpile
/-! # Specification of the stabilisation of a sandpile -/

namespace Verif

/-- The cells of the grid that are not on its edge. -/
def Inner (rows cols a b : Nat) : Prop := 0 < a ∧ a + 1 < rows ∧ 0 < b ∧ b + 1 < cols

instance (rows cols a b : Nat) : Decidable (Inner rows cols a b) := inferInstanceAs (Decidable (_ ∧ _))

/-- The two cells share a side. -/
def Beside (a b i j : Nat) : Prop := (i = a ∧ (j = b + 1 ∨ b = j + 1)) ∨ (j = b ∧ (i = a + 1 ∨ a = i + 1))

instance (a b i j : Nat) : Decidable (Beside a b i j) := inferInstanceAs (Decidable (_ ∨ _))

/-- No cell off the edge has four grains or more. -/
def AtRest (rows cols : Nat) (f : Nat → Nat → Int) : Prop := ∀ a b, Inner rows cols a b → f a b < 4

/-- Cell `(a, b)` alone topples: it loses four grains and the cells beside it get one each.  What falls on the edge is lost. -/
def toppleCell (rows cols : Nat) (f : Nat → Nat → Int) (a b : Nat) (i j : Nat) : Int :=
  if Inner rows cols i j then f i j + (if Beside a b i j then 1 else 0) - (if i = a ∧ j = b then 4 else 0) else f i j

/-- `g` is obtained from `f` by toppling one cell after the other, each of which has at least four grains when it topples. -/
inductive Topples (rows cols : Nat) (f : Nat → Nat → Int) : (Nat → Nat → Int) → Prop
  | refl : Topples rows cols f f
  | step {g : Nat → Nat → Int} {a b : Nat} : Topples rows cols f g → Inner rows cols a b → 4 ≤ g a b →
      Topples rows cols f (toppleCell rows cols g a b)

/-- The closed sandpile on which `drop t a b` grains are dropped on cell `(a, b)` at timestep `t`. -/
def sandDrops (rows cols : Nat) (s : Nat → Nat → Int) (drop : Nat → Nat → Nat → Nat) : Nat → Nat → Nat → Int
  | 0 => s
  | t + 1 => fun a b => sandStep rows cols true (sandDrops rows cols s drop t) a b + drop (t + 1) a b

/-- The grains dropped on a cell up to timestep `t`. -/
def dropped (drop : Nat → Nat → Nat → Nat) : Nat → Nat → Nat → Nat
  | 0, _, _ => 0
  | t + 1, a, b => dropped drop t a b + drop (t + 1) a b

/-- The grains that a cell off the edge gets at the first timestep from cells of the edge with four grains or more. -/
def edgeSpill (rows cols : Nat) (s : Nat → Nat → Int) (a b : Nat) : Nat :=
  if Inner rows cols a b then (cross rows cols a b).countP (fun p => decide (¬ Inner rows cols p.1 p.2 ∧ 4 ≤ s p.1 p.2)) else 0

/-- The weighted number of grains: those in row `a` count `a (rows - 1 - a)`. -/
def sandHeight (rows cols : Nat) (f : Nat → Nat → Int) : Int :=
  grains rows cols (fun a b => if Inner rows cols a b then (a : Int) * ((rows : Int) - 1 - a) * f a b else 0)

end Verif
