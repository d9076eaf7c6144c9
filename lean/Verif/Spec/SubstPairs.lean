/-! # Rewriting with a total rule -/

namespace Verif.Spec

/-- Replace all windows of `m` symbols, left to right, by what `f` says. -/
def slide {V : Type} (m : Nat) (f : List V → List V) : List V → List V
  | [] => []
  | a :: w => if m ≤ w.length + 1 then f ((a :: w).take m) ++ slide m f w else []

/-- The word after `t` replacements. -/
def slides {V : Type} (m : Nat) (f : List V → List V) (w : List V) : Nat → List V
  | 0 => w
  | t + 1 => slide m f (slides m f w t)

/-- Word number `t` of the third demo. -/
def demo3Word (t : Nat) : List Nat :=
  if t = 0 then [1, 2, 2, 1]
  else if t % 2 = 1 then [2] ++ (List.replicate (t / 2) [1, 1, 2]).flatten ++ [1, 2, 2, 1]
  else [1, 2] ++ (List.replicate (t / 2 - 1) [1, 1, 2]).flatten ++ [1, 2, 2, 1]

end Verif.Spec
