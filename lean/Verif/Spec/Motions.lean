import Verif.Model.Evolution
/-! # Motions of the square grid, and rules that treat all directions alike (used by C157) -/

namespace Verif.Spec

/-- A motion of the square grid: rows and columns may change places, either may be turned round, and everything is moved by `p` rows and
`q` columns. -/
structure Motion where
  swap : Bool
  flipRows : Bool
  flipCols : Bool
  p : Int
  q : Int

/-- What a motion does to offsets. -/
def Motion.turn (m : Motion) (d : Int × Int) : Int × Int :=
  (let u := if m.swap then d.2 else d.1
   if m.flipRows then -u else u,
   let v := if m.swap then d.1 else d.2
   if m.flipCols then -v else v)

/-- What a motion does to cells. -/
def Motion.move (m : Motion) (x y : Int) : Int × Int := ((m.turn (x, y)).1 + m.p, (m.turn (x, y)).2 + m.q)

/-- `G` is the rule `F` of the activity of a cell and of those of its `k` neighbours in any order, on activities that satisfy `Good`. -/
structure OrderFree {I V : Type} (k : Nat) (Good : V → Prop) (G : NodeCtx Nat Int V I → Except Err V) (F : V → List V → V) : Prop where
  keeps : ∀ v l, Good v → (∀ u ∈ l, Good u) → Good (F v l)
  perm : ∀ v l l', l.Perm l' → F v l = F v l'
  rule : ∀ (c : NodeCtx Nat Int V I) l, c.neighbourActs.Perm (c.current :: l) → l.length = k → Good c.current → (∀ u ∈ l, Good u) →
    G c = .ok (F c.current l)

end Verif.Spec
